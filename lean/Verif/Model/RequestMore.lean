import Verif.Model.Request
import Verif.Model.Handlers
/-!
# The rest of the request object (`http/request.py:119-184`, `:211-215`, `:556-597`)
-/

namespace Verif
variable {ρ σ F : Type} [Producer ρ]

/-- `str(n)` of a number. -/
def Py.strNat (n : Nat) : Bytes := (Nat.toDigits 10 n).map fun c => UInt8.ofNat c.toNat

/-- `get_port` (`http/request.py:133-134`). -/
def Req.getPort (r : Req ρ σ F) : Bytes :=
  match r.port with
  | none => b!"None"
  | some (.text b) => b
  | some (.num n) => Py.strNat n

/-- `set_scheme` (`http/request.py:126-128`). -/
def Req.setScheme (scheme : Option Bytes) (r : Req ρ σ F) : Req ρ σ F :=
  match scheme with
  | none => r
  | some s => if s = [] then r else { r with scheme := some s }

/-- `is_plain_text` (`http/request.py:179-187`). -/
def Req.isPlainText (r : Req ρ σ F) : Except Exc Bool :=
  match r.contentType with
  | none => .error .attributeError
  | some t => .ok (decide (t = some b!"text/plain"))

/-- The getters of `stream` and `body_stream` (`http/request.py:211-215`, `241-245`): the stream if it is false.
`LazyStream` defines neither `__len__` nor `__nonzero__`, so it is always true. -/
def Req.getStream (_ : Req ρ σ F) : Option (LazyStream ρ) := none

/-- `read` (`http/request.py:569-573`). -/
def Req.read (n : Option Int) (r : Req ρ σ F) : Res (Req ρ σ F) Bytes :=
  match r.stream.read n with
  | (.error e, s) => (.error (ioToType e), { r with stream := s })
  | (.ok b, s) => (.ok b, { r with stream := s })

/-- `readline` (`http/request.py:575-580`), and with it iteration, `xreadlines` and `readlines` (`582-597`):
`LazyStream` has no method `readline`. -/
def Req.readline (r : Req ρ σ F) : Res (Req ρ σ F) Bytes := (.error .attributeError, r)

/-- `f.close()` of an uploaded file (`files/base.py:116-117`, `files/uploadedfile.py:69-76`).  Closing the
library's temporary file closes it and then removes it; if it has been moved away (`gone`), removing it is an
`OSError`, which `except IOError` does not catch.  A closed file is left alone. -/
def closeUploaded (gone : Nat → Bool) (f : Uploaded) (h : Heap) : Res Heap Unit :=
  match h[f.ref]? with
  | none => (.error .attributeError, h)
  | some o =>
    if o.closed then (.ok (), h)
    else if f.inMemory = false ∧ gone f.ref = true then (.error .osError, h.set f.ref { o with closed := true })
    else (.ok (), h.set f.ref { o with closed := true })

/-- `for f in files: f.close()`. -/
def closeAll (gone : Nat → Bool) : List Uploaded → Heap → Res Heap Unit
  | [], h => (.ok (), h)
  | f :: fs, h =>
    match closeUploaded gone f h with
    | (.error e, h) => (.error e, h)
    | (.ok (), h) => closeAll gone fs h

/-- `close` (`http/request.py:556-559`). -/
def Req.close (gone : Nat → Bool) (r : Req ρ σ Uploaded) (h : Heap) : Res Heap Unit :=
  match r.files_ with
  | none => (.ok (), h)
  | some d => closeAll gone (d.flatMap Prod.snd) h

end Verif
