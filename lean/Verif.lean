import Verif.Props.Stream
import Verif.Props.Boundary
import Verif.Props.Header
import Verif.Props.Limits
import Verif.Props.Budget
import Verif.Props.MemLimit
import Verif.Props.Robust
import Verif.Props.Trace
import Verif.Props.Entry
import Verif.Props.Form
import Verif.Props.Convenient
import Verif.Props.Independent
import Verif.Props.MVDict
import Verif.Props.Url
import Verif.Props.Quote
import Verif.Props.Query
import Verif.Props.RequestHead
import Verif.Props.Request
import Verif.Props.Util
import Verif.Props.Text
import Verif.Props.Date
import Verif.Props.Date2
import Verif.Props.Utf8
import Verif.Props.File
import Verif.Props.Conf
import Verif.Props.Message
import Verif.Props.Uri
import Verif.Props.Base64
import Verif.Props.Files
import Verif.Props.ReadOnly
import Verif.Props.Exact
import Verif.Props.Load
import Verif.Props.FileObj
import Verif.Props.Views
import Verif.Props.RequestMore
import Verif.Props.DeepCopy
import Verif.Props.Arrival
import Verif.Props.Consumed
import Verif.Props.Gate
import Verif.Props.GateAll
import Verif.Props.GateRequest
import Verif.Props.LostRequest
import Verif.Props.FileProxy
import Verif.Props.TextBoundary
import Verif.Props.QueryMap
import Verif.Props.QueryText
import Verif.Props.ListText
import Verif.Props.RepoTests
import Verif.Props.Kept
import Verif.Props.Modules
import Verif.Props.Shown
import Verif.Props.OneLine
import Verif.Props.OneLineForm
import Verif.Props.NoLimit
import Verif.Props.BadLines
import Verif.Proofs.Phases
import Verif.Proofs.Healthy
import Verif.Props.Healthy
import Verif.Props.WrittenType
import Verif.Props.Lifetime
import Verif.Props.Numbers
import Verif.Props.Closed
import Verif.Proofs.Tracks
import Verif.Props.Isolated
import Verif.Proofs.Weigh
import Verif.Props.Conserved
import Verif.Props.Ajax
import Verif.Props.Decoding
import Verif.Proofs.Truthful
import Verif.Props.Described
import Verif.Props.ExtendedBoundary
import Verif.Props.Trim
import Verif.Props.Unknown
import Verif.Props.Stale
import Verif.Props.HeaderCase
import Verif.Props.LastHeader
import Verif.Props.FieldName
import Verif.Props.Paths
import Verif.Props.Failing
import Verif.Props.Fresh
import Verif.Props.Regex
import Verif.Props.HandlerErrors
import Verif.Props.LeftBehind
import Verif.Props.Metered
import Verif.Props.Meant
import Verif.Props.Counted
import Verif.Props.QueryEncoding
import Verif.Props.Lost
import Verif.Props.Sealed
import Verif.Props.OpenHeaders
import Verif.Props.Sharper
import Verif.Props.Written
import Verif.Props.LongName
import Verif.Props.Announced
import Verif.Props.Raised
import Verif.Props.Failed
import Verif.Props.FailedUpload
import Verif.Props.Undecodable
import Verif.Props.SharedCharset
import Verif.Props.OldForm
import Verif.Props.Hang
import Verif.Props.Empty
import Verif.Props.LineFeed
import Verif.Props.Again
import Verif.Props.Refused
import Verif.Props.Token
import Verif.Props.Witness
import Verif.Props.NoTaker
import Verif.Props.FullText
import Verif.Props.Following
import Verif.Props.LeftOpen
import Verif.Props.EmptyRequest
import Verif.Props.Epilogue
import Verif.Props.LastFile
import Verif.Props.PythonErrors
import Verif.Props.RequestForm
import Verif.Props.Encoded
import Verif.Model.Repr
import Verif.Props.Repr
