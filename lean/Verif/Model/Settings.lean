import Verif.Py.Bytes
/-!
# Settings read by the parser (`conf/settings.py:85-115`)
-/

namespace Verif

/-- The attributes of a `Settings` object that the modelled code reads.  Values that may be
`None` are options; sizes are integers because nothing checks their sign. -/
structure Settings where
  fileUploadTempDir : Bytes := []
  maxHeaderSize : Int := 16
  fileMaxMemory : Int := 30 * 2 ^ 20
  dataMaxMemory : Option Int := some (5 * 2 ^ 20)
  maxFields : Option Int := some 4096
  defaultCharset : Bytes := b!"ISO-8859-1"
  deriving DecidableEq, Repr

end Verif
