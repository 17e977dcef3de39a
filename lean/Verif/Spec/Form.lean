import Verif.Props.Header
import Verif.Spec.Multipart
/-!
# How a client writes a form as `multipart/form-data` (RFC 7578)
-/

namespace Verif.Spec

/-- Something a form sends. -/
inductive FormItem where
  | field (name value : Bytes)
  | file (name fileName contentType content : Bytes)
  deriving DecidableEq

namespace FormItem

/-- The form control's name. -/
def name : FormItem → Bytes
  | field n _ => n
  | file n _ _ _ => n

/-- The bytes sent. -/
def data : FormItem → Bytes
  | field _ v => v
  | file _ _ _ c => c

/-- The header lines of the part; quotes and backslashes in names are escaped. -/
def lines : FormItem → List Bytes
  | field n _ => [b!"Content-Disposition: form-data" ++ renderParams [(b!"name", n)]]
  | file n fn ct _ => [b!"Content-Disposition: form-data" ++ renderParams [(b!"name", n), (b!"filename", fn)],
      b!"Content-Type: " ++ ct]

/-- The header of the part with the line end before it, without the empty line. -/
def head (it : FormItem) : Bytes := it.lines.flatMap (fun l => b!"\r\n" ++ l)

/-- What is written between two separators (without the line end before the second). -/
def text (it : FormItem) : Bytes := it.head ++ b!"\r\n\r\n" ++ it.data

end FormItem

/-- The body: a preamble (with its line end, if any), the parts, the closing separator, an epilogue. -/
def renderForm (boundary : Bytes) (its : List FormItem) (preamble : Option Bytes := none)
    (epilogue : Bytes := b!"\r\n") : Bytes :=
  (preamble.elim [] (· ++ b!"\r\n")) ++
    (b!"--" ++ boundary ++ (its.flatMap (fun it => it.text ++ b!"\r\n" ++ (b!"--" ++ boundary)) ++
      (b!"--" ++ epilogue)))

/-- Preamble and epilogue contain no separator and no empty line. -/
structure Around (boundary : Bytes) (preamble : Option Bytes) (epilogue : Bytes) : Prop where
  preSep : ∀ p, preamble = some p → ¬ (b!"--" ++ boundary) <:+: p
  preHead : ∀ p, preamble = some p → ¬ b!"\r\n\r\n" <:+: p
  preShort : ∀ p, preamble = some p → p.length < 1024
  epiSep : ¬ (b!"--" ++ boundary) <:+: b!"--" ++ epilogue
  epiHead : ¬ b!"\r\n\r\n" <:+: epilogue

/-- What the parser's documentation promises to handle.  The conditions say that names survive the
quoting rules of the header and the trimming of white space, and that the separator can be told
apart. -/
structure FormItem.Ok (boundary : Bytes) (it : FormItem) : Prop where
  /-- The boundary does not occur. -/
  noSep : ¬ (b!"--" ++ boundary) <:+: it.text
  /-- The parser looks for the header in the first 1024 bytes. -/
  short : it.head.length + 4 ≤ 1024
  trimmed : Py.strip it.name = it.name
  oneLine : 13 ∉ it.name
  kind : match it with
    | .field n _ => (∀ c ∈ n, c < 128) ∧ Separable [(b!"name", n)]
    | .file n fn ct c => n ≠ [] ∧ Separable [(b!"name", n), (b!"filename", fn)] ∧ c ≠ [] ∧
      fn ≠ [] ∧ Py.strip fn = fn ∧ fn.length ≤ 255 ∧ (∀ x ∈ fn, x ≠ 13 ∧ x ≠ 38 ∧ x ≠ 47 ∧ x ≠ 92) ∧
      (∀ x ∈ ct, x < 128 ∧ x ≠ 13 ∧ x ≠ 34 ∧ x ≠ 59)

/-- Name and value of the fields of a form. -/
def fieldsOf (its : List FormItem) : List (Bytes × Bytes) :=
  its.filterMap (fun it => match it with
    | .field n v => some (n, v)
    | .file .. => none)

/-- Name, file name and content of the files of a form. -/
def filesOf (its : List FormItem) : List (Bytes × Bytes × Bytes) :=
  its.filterMap (fun it => match it with
    | .field .. => none
    | .file n fn _ c => some (n, fn, c))

/-- The size of the fields as the limit counts it. -/
def formSize (its : List FormItem) : Nat :=
  ((fieldsOf its).map (fun p => p.2.length + p.1.length + 2)).sum

/-- A form within the limits. -/
structure InLimits (S : Settings) (its : List FormItem) : Prop where
  count : ∀ n, S.maxFields = some n → ((fieldsOf its).length : Int) ≤ n
  memory : ∀ n, S.dataMaxMemory = some n → (formSize its : Int) ≤ n

end Verif.Spec
