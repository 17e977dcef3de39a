import Verif.Model.RequestHead
import Verif.Model.Query
/-!
# The request object (`http/request.py:56-580`)

The `Settings` object is shared between requests and changed by the `encoding` setter, so it is
part of the state that every method takes and returns.  `ρ` is the type of the input stream's
producer, `σ` the state of the upload handlers (and the file system), `F` the type of uploaded
files.
-/

namespace Verif

/-- A `QueryDict` by value: its pairs in order.  (`C53_getlist` says what its lists are.) -/
structure QDict where
  pairs : List (UStr × UStr)
  mutable : Bool
  deriving DecidableEq

/-- The value of `self.POST`: a `QueryDict` of a query string, or of a multipart form.  (The latter is
made immutable before it is returned, `http/multipartparser.py:315`; its `_mutable` is left out.) -/
inductive PostDict where
  | query (q : QDict)
  | form (d : MVD PostItem)
  deriving DecidableEq

/-- `self.port`: the text of the host header or a default number. -/
inductive Port where
  | text (b : Bytes)
  | num (n : Nat)
  deriving DecidableEq

/-- `self.META`: the two entries that are ever set. -/
structure Meta where
  query : Option Bytes := none
  headers : Option (MVD Bytes) := none
  deriving DecidableEq

/-- `HttpRequest` (`http/request.py:59-105`).  Attributes that the code deletes are options, `none`
meaning that the attribute does not exist; `method`, `scheme`, `host`, `port`, `path`, `proto` are
`None` when they are `none`.  (Simplification: after a change of stream that failed they do not exist either; their
getters are modelled for the other states only, those for which `META` exists.)  `content_params` is always `None` and left
out. -/
structure Req (ρ σ F : Type) where
  stream : LazyStream ρ
  headerParsed : Bool := false
  bodyParsed : Bool := false
  post : Option PostDict := none
  files : Option (MVD F) := none
  get : Option QDict := none
  info : Option Meta := none
  method : Option Bytes := none
  scheme : Option Bytes := none
  host : Option Bytes := none
  port : Option Port := none
  path : Option Bytes := none
  proto : Option Bytes := none
  contentType : Option (Option Bytes) := none
  /-- `self._post` -/
  post_ : Option PostDict := none
  /-- `self._files` -/
  files_ : Option (MVD F) := none
  /-- `self._body` -/
  body_ : Option PyStr := none
  /-- `self._upload_handlers` -/
  handlers : Option (HandlerOps ρ σ F) := none

/-- What the code takes from its environment: codecs, the library's `uses_params`, and the upload
handlers named in `settings.FILE_UPLOAD_HANDLERS` (`load` instantiates them,
`http/request.py:322-328`).  `fuel64` bounds the base64 loop, see `fillBase64`. -/
structure Env (ρ σ F : Type) where
  C : Codecs
  up : List UStr
  load : σ → Res σ (HandlerOps ρ σ F)
  fuel64 : Nat

variable {ρ σ F : Type} [Producer ρ]

/-- `QueryDict(settings, query_string, mutable)` by value, see `newQueryDict`. -/
def queryDict (C : Codecs) (S : Settings) (qs : Option PyStr) (mutable : Bool) : Except Exc QDict :=
  match queryText C S qs with
  | .error e => .error e
  | .ok q =>
    match limitedParseQsl C q true S.defaultCharset S.maxFields with
    | .error e => .error e
    | .ok pairs => .ok ⟨pairs, mutable⟩

/-- `_re_init` (`http/request.py:87-105`). -/
def Req.reInit (C : Codecs) (S : Settings) (r : Req ρ σ F) : Res (Req ρ σ F) Unit :=
  match queryDict C S none true with
  | .error e => (.error e, r)
  | .ok q =>
    (.ok (), { r with get := some q, info := some {}, method := none, scheme := none,
                      host := none, port := none, path := none, proto := none,
                      contentType := some none })

/-- `HttpRequest(request_stream, settings)` (`http/request.py:59-85`). -/
def Req.new (C : Codecs) (S : Settings) (p : ρ) : Except Exc (Req ρ σ F) :=
  match queryDict C S none true with
  | .error e => .error e
  | .ok q =>
    match Req.reInit C S { stream := LazyStream.mk' p, post := some (.query q), files := some [] } with
    | (.error e, _) => .error e
    | (.ok (), r) => .ok r

/-- The `stream` setter (`http/request.py:217-239`, `277-308`). -/
def Req.setStream (C : Codecs) (S : Settings) (p : ρ) (r : Req ρ σ F) : Res (Req ρ σ F) Unit :=
  let r := { r with stream := LazyStream.mk' p, get := none, info := none, method := none,
                    scheme := none, host := none, port := none, path := none, proto := none,
                    contentType := none }
  match Req.reInit C S r with
  | (.error e, r) => (.error e, r)
  | (.ok (), r) => (.ok (), { r with headerParsed := false, bodyParsed := false })

/-- The `body_stream` setter (`http/request.py:247-275`). -/
def Req.setBodyStream (C : Codecs) (S : Settings) (p : ρ) (r : Req ρ σ F) : Res (Req ρ σ F) Unit :=
  let r := { r with stream := LazyStream.mk' p, post := none, files := none, body_ := none }
  match queryDict C S none true with
  | .error e => (.error e, r)
  | .ok q => (.ok (), { r with post := some (.query q), files := some [], bodyParsed := false })

/-- A charset name as the key of the codec tables.  (A `unicode` name outside ASCII is never a
codec; all of them stand as `?`.) -/
def charsetName : PyStr → Bytes
  | .b s => s
  | .u s => if s.all (· < 128) then s.map UInt8.ofNat else b!"?"

/-- The `encoding` setter (`http/request.py:193-209`). -/
def Req.setEncoding (v : PyStr) (st : Settings × Req ρ σ F) : Settings × Req ρ σ F :=
  ({ st.1 with defaultCharset := charsetName v },
   { st.2 with get := none, post_ := none, body_ := none })

/-- The loop that looks for the end of the header (`http/request.py:411-431`).  The last component
tells whether a `read` has succeeded, i.e. `_request_header_parsed` has been set. -/
def headerLoop (n : Int) : (fuel : Nat) → Bytes → Bool → LazyStream ρ →
    Except Exc (Bytes × Bytes) × LazyStream ρ × Bool
  | 0, _, started, s => (.error .diverge, s, started)
  | fuel + 1, acc, started, s =>
    match s.read (some n) with
    | (.error e, s) => (.error e, s, started)
    | (.ok chunk, s) =>
      if chunk = [] then (.error .invalidHttpRequest, s, true)
      else
        match Py.find b!"\r\n\r\n" (acc ++ chunk) with
        | some i => (.ok ((acc ++ chunk).take i, (acc ++ chunk).drop (i + 4)), s, true)
        | none => headerLoop n fuel (acc ++ chunk) true s

/-- The host text and the remaining headers (`http/request.py:443-453`). -/
def hostText (l : ReqLine) (h : MVD Bytes) : Except Exc (Bytes × MVD Bytes) :=
  if l.domain ≠ [] then .ok (l.domain, h)
  else
    match h.get? b!"Host" with
    | none => .error .noHostFound
    | some vs => .ok (vs.getLast?.getD [], h.erase b!"Host")

/-- The port (`http/request.py:464-472`). -/
def portOf (scheme port : Bytes) : Port :=
  if port ≠ [] then .text port
  else if Py.lower scheme = b!"https" then .num 443
  else if Py.lower scheme = b!"http" then .num 80
  else .num 65536

/-- `self.content_type, header_dict = parse_header(request_headers.get('Content-Type'))` and the
charset (`http/request.py:478-484`). -/
def applyContentType (C : Codecs) (h : MVD Bytes) (S : Settings) (r : Req ρ σ F) :
    Res (Settings × Req ρ σ F) Unit :=
  match h.get? b!"Content-Type" with
  | none => (.ok (), S, { r with contentType := some none })
  | some vs =>
    match parseHeader C (vs.getLast?.getD []) with
    | .error e => (.error e, S, r)
    | .ok (ct, params) =>
      let r := { r with contentType := some (some ct) }
      match params.get? b!"charset" with
      | none => (.ok (), S, r)
      | some v => (.ok (), Req.setEncoding v (S, r))

/-- The end of `parse_request_header` (`http/request.py:486-489`). -/
def applyQuery (C : Codecs) (query : Bytes) (h : MVD Bytes) (S : Settings) (r : Req ρ σ F) :
    Res (Settings × Req ρ σ F) Unit :=
  match r.info with
  | none => (.error .attributeError, S, r)
  | some m =>
    let r := { r with info := some { m with query := some query } }
    match (if query ≠ [] then queryDict C S (some (.b query)) false
        else queryDict C S none true) with
    | .error e => (.error e, S, r)
    | .ok q =>
      (.ok (), S, { r with get := some q,
                           info := some { query := some query, headers := some h } })

/-- `parse_request_header` from line 436 on, for the header text (`http/request.py:436-489`). -/
def applyHeader (E : Env ρ σ F) (header : Bytes) (S : Settings) (r : Req ρ σ F) :
    Res (Settings × Req ρ σ F) Unit :=
  match parseRequestHeaders (header ++ b!"\r\n") with
  | .error e => (.error e, S, r)
  | .ok (line, h) =>
    match parseRequestLine E.up line with
    | .error e => (.error e, S, r)
    | .ok l =>
      match hostText l h with
      | .error e => (.error e, S, r)
      | .ok (host, h) =>
        let hp := splitDomainPort host
        let r := { r with scheme := some (if l.scheme ≠ [] then Py.lower l.scheme else b!"UNKNOWN"),
                          host := some hp.1, port := some (portOf l.scheme hp.2),
                          method := some l.method, path := some l.path, proto := some l.proto }
        match applyContentType E.C h S r with
        | (.error e, S, r) => (.error e, S, r)
        | (.ok (), S, r) => applyQuery E.C l.query h S r

/-- `parse_request_header` (`http/request.py:398-489`). -/
def parseRequestHeader (E : Env ρ σ F) (S : Settings) (r : Req ρ σ F) :
    Res (Settings × Req ρ σ F) Unit :=
  if r.headerParsed then (.ok (), S, r)
  else
    match headerLoop S.maxHeaderSize (r.stream.size + 2) [] false r.stream with
    | (.error e, s, started) => (.error e, S, { r with stream := s, headerParsed := started })
    | (.ok (header, rest), s, _) =>
      match s.unget rest with
      | (.error e, s) => (.error e, S, { r with stream := s, headerParsed := true })
      | (.ok (), s) => applyHeader E header S { r with stream := s, headerParsed := true }

/-- `read_size <= settings.DATA_UPLOAD_MAX_MEMORY_SIZE`: in Python 2 no number is `<= None`. -/
def withinLimit (limit : Option Int) (n : Nat) : Bool := limit.any (fun l => decide ((n : Int) ≤ l))

/-- `HttpRequest.read` turns an `IOError` into a `TypeError` (`http/request.py:569-573`: `six.reraise`
with an instance). -/
def ioToType : Exc → Exc
  | .ioError => .typeError
  | e => e

/-- The loop of `body` (`http/request.py:381-390`) after a chunk has been read. -/
def bodyLoop (limit : Option Int) : (fuel : Nat) → (acc chunk : Bytes) → (readSize : Nat) →
    LazyStream ρ → Res (LazyStream ρ) Bytes
  | 0, _, _, _, s => (.error .diverge, s)
  | fuel + 1, acc, chunk, readSize, s =>
    if withinLimit limit readSize = true ∧ chunk ≠ [] then
      match s.read (some 65536) with
      | (.error e, s) => (.error (ioToType e), s)
      | (.ok c, s) => bodyLoop limit fuel (acc ++ chunk) c (readSize + c.length) s
    else if withinLimit limit readSize = false then (.error .requestDataTooBig, s)
    else (.ok acc, s)

/-- The second branch of `body` (`http/request.py:367-391`). -/
def readBody (S : Settings) (r : Req ρ σ F) : Res (Req ρ σ F) PyStr :=
  match r.stream.read (some 65536) with
  | (.error e, s) => (.error (ioToType e), { r with stream := s })
  | (.ok c, s) =>
    match bodyLoop S.dataMaxMemory (s.size + 2) [] c c.length s with
    | (.error e, s) => (.error e, { r with stream := s })
    | (.ok b, s) => (.ok (.b b), { r with stream := s, body_ := some (.b b) })

/-- The content types with a parsed form. -/
def isFormType (ct : Option Bytes) : Bool :=
  decide (ct = some b!"application/x-www-form-urlencoded" ∨ ct = some b!"multipart/form-data")

/-- `body` when the header has been parsed (`http/request.py:364-391`, `396`). -/
def bodyCore (S : Settings) (r : Req ρ σ F) : Res (Req ρ σ F) PyStr :=
  if r.bodyParsed = true ∧ r.contentType = none then (.error .attributeError, r)
  else if r.bodyParsed = true ∧ isFormType (r.contentType.getD none) = true then
    (.error .rawPostData, r)
  else
    match r.body_ with
    | some b => (.ok b, r)
    | none => readBody S r

/-- `body` (`http/request.py:357-396`).  After `parse_request_header` has returned the flag is set,
so the recursive call ends in `bodyCore`. -/
def body (E : Env ρ σ F) (S : Settings) (r : Req ρ σ F) : Res (Settings × Req ρ σ F) PyStr :=
  if r.headerParsed = true ∨ (r.bodyParsed = true ∧
      (r.contentType = none ∨ isFormType (r.contentType.getD none) = true)) then
    match bodyCore S r with
    | (x, r) => (x, S, r)
  else
    match parseRequestHeader E S r with
    | (.error e, S, r) => (.error e, S, r)
    | (.ok (), S, r) =>
      match bodyCore S r with
      | (x, r) => (x, S, r)

/-- `_mark_post_parse_error` (`http/request.py:491-493`), then raise `e`. -/
def markError (C : Codecs) (S : Settings) (e : Exc) (r : Req ρ σ F) : Req ρ σ F × Exc :=
  match queryDict C S none false with
  | .error e' => (r, e')
  | .ok q => ({ r with post_ := some (.query q), files_ := some [] }, e)

/-- `.decode(self.encoding)` on the value of `body()`: a `unicode` is encoded as ASCII first. -/
def decodeBody (C : Codecs) (S : Settings) : PyStr → Except Exc UStr
  | .b s => C.decode S.defaultCharset s
  | .u s => if s.all (· < 128) then C.decode S.defaultCharset (s.map UInt8.ofNat)
      else .error .unicodeEncodeError

/-- `_parse_file_upload` (`http/request.py:352-355`) with the getter `upload_handlers`
(`330-335`): an empty list of handlers is loaded again. -/
def parseFileUpload (E : Env ρ σ F) (S : Settings) (H : HandlerOps ρ σ F) (r : Req ρ σ F) (w : σ) :
    Except Exc (MVD PostItem × MVD F) × Req ρ σ F × σ :=
  match r.info.bind (·.headers) with
  | none => (.error .attributeError, r, w)
  | some h =>
    match (if H.count = 0 then E.load w else (.ok H, w)) with
    | (.error e, w) => (.error e, r, w)
    | (.ok H, w) =>
      let r := { r with handlers := some H }
      match MultiPart.create E.C H ((h.get? b!"Content-Type").bind List.getLast?)
          ((h.get? b!"Content-Length").bind List.getLast?) with
      | .error e => (.error e, r, w)
      | .ok m =>
        match m.run E.C S H E.fuel64 (unicodeBoundary E.C ((h.get? b!"Content-Type").bind List.getLast?))
            r.stream w with
        | (x, s, w) => (x, { r with stream := s }, w)

/-- The three kinds of body (`http/request.py:525-542`): sets `_post` and `_files`. -/
def parseByType (E : Env ρ σ F) (S : Settings) (H : HandlerOps ρ σ F) (r : Req ρ σ F) (w : σ) :
    Except Exc Unit × Req ρ σ F × σ :=
  match r.contentType with
  | none => (.error .attributeError, r, w)
  | some ct =>
    if ct = some b!"multipart/form-data" then
      match parseFileUpload E S H r w with
      | (.error .multiPartParserError, r, w) =>
        match markError E.C S .multiPartParserError r with
        | (r, e) => (.error e, r, w)
      | (.error e, r, w) => (.error e, r, w)
      | (.ok (p, f), r, w) => (.ok (), { r with post_ := some (.form p), files_ := some f }, w)
    else if ct = some b!"application/x-www-form-urlencoded" then
      match bodyCore S r with
      | (.error e, r) => (.error e, r, w)
      | (.ok b, r) =>
        match queryDict E.C S (some b) false with
        | .error e => (.error e, r, w)
        | .ok q => (.ok (), { r with post_ := some (.query q), files_ := some [] }, w)
    else
      match queryDict E.C S none false with
      | .error e => (.error e, r, w)
      | .ok q => (.ok (), { r with post_ := some (.query q), files_ := some [] }, w)

/-- The end of `parse_request_body` (`http/request.py:544-554`). -/
def finishBody (C : Codecs) (S : Settings) (r : Req ρ σ F) : Res (Req ρ σ F) Unit :=
  match bodyCore S r with
  | (.error e, r) => (.error e, r)
  | (.ok b, r) =>
    match decodeBody C S b with
    | .error e => (.error e, r)
    | .ok u =>
      (.ok (), { r with body_ := some (.u u), bodyParsed := true, post := r.post_,
                        files := r.files_ })

/-- `parse_request_body` once the header is parsed (`http/request.py:515-554`). -/
def parseBodyStream (E : Env ρ σ F) (S : Settings) (H : HandlerOps ρ σ F) (r : Req ρ σ F) (w : σ) :
    Except Exc Unit × Req ρ σ F × σ :=
  match r.stream.read (some 1) with
  | (.error e, s) => (.error e, { r with stream := s }, w)
  | (.ok data, s) =>
    let r := { r with stream := s }
    if data = [] then
      match queryDict E.C S none false with
      | .error e => (.error e, r, w)
      | .ok q => (.ok (), { r with post_ := some (.query q), files_ := some [] }, w)
    else
      match s.unget data with
      | (.error e, s) => (.error e, { r with stream := s }, w)
      | (.ok (), s) =>
        match parseByType E S H { r with stream := s } w with
        | (.error e, r, w) => (.error e, r, w)
        | (.ok (), r, w) =>
          match finishBody E.C S r with
          | (x, r) => (x, r, w)

/-- `parse_request_body` (`http/request.py:495-554`). -/
def parseRequestBody (E : Env ρ σ F) (S : Settings) (r : Req ρ σ F) (w : σ) :
    Except Exc Unit × Req ρ σ F × σ :=
  if r.bodyParsed then (.ok (), r, w)
  else
    match E.load w with
    | (.error e, w) => (.error e, r, w)
    | (.ok H, w) =>
      let r := { r with handlers := some H }
      if r.headerParsed = false then
        match markError E.C S .requestHeaderParse r with
        | (r, e) => (.error e, r, w)
      else parseBodyStream E S H r w

/-- `parse` (`http/request.py:343-350`). -/
def parseRequest (E : Env ρ σ F) (S : Settings) (r : Req ρ σ F) (w : σ) :
    Except Exc Unit × Settings × Req ρ σ F × σ :=
  match parseRequestHeader E S r with
  | (.error e, S, r) => (.error e, S, r, w)
  | (.ok (), S, r) =>
    match parseRequestBody E S r w with
    | (x, r, w) => (x, S, r, w)

/-- The `upload_handlers` setter (`http/request.py:337-341`). -/
def Req.setHandlers (H : HandlerOps ρ σ F) (r : Req ρ σ F) : Res (Req ρ σ F) Unit :=
  if r.files_.isSome then (.error .attributeError, r) else (.ok (), { r with handlers := some H })

/-- `is_secure` (`http/request.py:171-172`). -/
def Req.isSecure (r : Req ρ σ F) : Bool := decide (r.scheme = some b!"https")

/-- `is_ajax` (`http/request.py:174-177`). -/
def Req.isAjax (r : Req ρ σ F) : Except Exc Bool :=
  match r.info with
  | none => .error .attributeError
  | some m =>
    match m.headers with
    | none => .error .keyError
    | some h => .ok (h.get? b!"XMLHttpRequest").isSome

end Verif
