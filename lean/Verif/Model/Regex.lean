import Verif.Py.Re
import Verif.Py.Dict
/-!
# The regular expressions of the package, as they are written

Other files of the model have the matching functions written by hand; the theorems of C126 say that they
are what the expressions mean.
-/

namespace Verif

/-- `host_validation_re` (`http/request.py:23`). -/
def hostPattern : Bytes := b!"^([a-z0-9.-]+|\\[[a-f0-9]*:[a-f0-9\\.:]+\\])(:\\d+)?$"

/-- `ETAG_MATCH` (`utils/http.py:22-29`), compiled with `re.X`. -/
def etagPattern : Bytes :=
  b!"\n    \\A(      # start of string and capture group\n" ++
  b!"    (?:W/)?  # optional weak indicator\n" ++
  b!"    \"        # opening quote\n" ++
  b!"    [^\"]*    # any sequence of non-quote characters\n" ++
  b!"    \"        # end quote\n" ++
  b!"    )\\Z      # end of string and capture group\n"

/-- `__D` (`utils/http.py:32`). -/
def patD : Bytes := b!"(?P<day>\\d{2})"

/-- `__D2` (`utils/http.py:33`). -/
def patD2 : Bytes := b!"(?P<day>[ \\d]\\d)"

/-- `__M` (`utils/http.py:34`). -/
def patM : Bytes := b!"(?P<mon>\\w{3})"

/-- `__Y` (`utils/http.py:35`). -/
def patY : Bytes := b!"(?P<year>\\d{4})"

/-- `__Y2` (`utils/http.py:36`). -/
def patY2 : Bytes := b!"(?P<year>\\d{2})"

/-- `__T` (`utils/http.py:37`). -/
def patT : Bytes := b!"(?P<hour>\\d{2}):(?P<min>\\d{2}):(?P<sec>\\d{2})"

/-- `RFC1123_DATE` (`utils/http.py:38`). -/
def rfc1123Pattern : Bytes :=
  b!"^\\w{3}, " ++ patD ++ b!" " ++ patM ++ b!" " ++ patY ++ b!" " ++ patT ++ b!" GMT$"

/-- `RFC850_DATE` (`utils/http.py:39`). -/
def rfc850Pattern : Bytes :=
  b!"^\\w{6,9}, " ++ patD ++ b!"-" ++ patM ++ b!"-" ++ patY2 ++ b!" " ++ patT ++ b!" GMT$"

/-- `ASCTIME_DATE` (`utils/http.py:40`). -/
def asctimePattern : Bytes :=
  b!"^\\w{3} " ++ patM ++ b!" " ++ patD2 ++ b!" " ++ patT ++ b!" " ++ patY ++ b!"$"

/-- `FIELDS_MATCH` (`utils/http.py:45`). -/
def fieldsPattern : Bytes := b!"[&;]"

/-- `_entity_re` (`utils/text.py:4`). -/
def entityPattern : Bytes := b!"&(#?[xX]?(?:[0-9a-fA-F]+|\\w{1,8}));"

/-- The expression of `cgi.valid_boundary` (library), which `MultiPartParser.__init__` calls
(`http/multipartparser.py:67`). -/
def boundaryPattern : Bytes := b!"^[ -~]{0,200}[!-~]$"

end Verif
