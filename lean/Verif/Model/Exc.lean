import Verif.Py.Bytes
/-!
# Exceptions

Python exceptions as values.  `StopIteration` is not listed: a producer that
raises it returns `ok none`.
-/

namespace Verif

/-- The exceptions the modelled code can raise.
* repository classes: `exceptions/exceptions.py:5-30`,
  `http/multipartparser.py:28-29`, `http/request.py:25-54`,
  `files/uploadhandler.py:17-52`, `utils/datastructures.py:6-7`,
  `conf/settings.py:5-12`;
* Python built-ins;
* `diverge` is not an exception: it marks a loop that ran out of fuel. -/
inductive Exc where
  | suspiciousMultipartForm
  | tooManyFieldsSent
  | requestDataTooBig
  | inputStreamExhausted
  | multiPartParserError
  | invalidHttpRequest
  | noHostFound
  | rawPostData
  | requestHeaderParse
  | multiValueDictKeyError
  | invalidDirectory
  | stopUpload (connectionReset : Bool)
  | skipFile
  | stopFutureHandlers
  | typeError
  | valueError
  | keyError
  | indexError
  | attributeError
  | assertionError
  | unicodeDecodeError
  | unicodeEncodeError
  | lookupError
  | notImplementedError
  | ioError
  | osError
  | overflowError
  | importError
  | other (n : Nat)
  | diverge
  deriving DecidableEq, Repr

/-- `isinstance(e, ValueError)`: `UnicodeDecodeError` and `UnicodeEncodeError`
are subclasses of `ValueError` in Python 2. -/
def Exc.isValueError : Exc → Bool
  | .valueError | .unicodeDecodeError | .unicodeEncodeError => true
  | _ => false

/-- The outcome of a method call on a mutable object: result or exception,
together with the object's state afterwards. -/
abbrev Res (σ α : Type) := Except Exc α × σ

end Verif
