import Verif.Model.Exc
/-!
# `unescape_entities` (`utils/text.py`)
-/

namespace Verif

/-- `[0-9a-fA-F]`. -/
def isHexDigit (c : UInt8) : Bool :=
  (48 ≤ c && c ≤ 57) || (97 ≤ c && c ≤ 102) || (65 ≤ c && c ≤ 70)

/-- `\w` without the UNICODE flag. -/
def isWordChar (c : UInt8) : Bool :=
  (48 ≤ c && c ≤ 57) || (97 ≤ c && c ≤ 122) || (65 ≤ c && c ≤ 90) || c = 95

/-- Does `t` match `(?:[0-9a-fA-F]+|\w{1,8})` completely? -/
def isEntityWord (t : Bytes) : Bool :=
  t ≠ [] && (t.all isHexDigit || (t.length ≤ 8 && t.all isWordChar))

/-- Does `t` match `#?[xX]?(?:[0-9a-fA-F]+|\w{1,8})` completely (`utils/text.py:4`)? -/
def isEntityBody (t : Bytes) : Bool :=
  let afterX (t : Bytes) : Bool :=
    isEntityWord t || (match t with
      | c :: r => (c = 120 || c = 88) && isEntityWord r
      | [] => false)
  afterX t || (match t with
    | 35 :: r => afterX r
    | _ => false)

/-- `int(text, 16)` restricted to what the regular expression lets through (letters, digits
and underscores): hexadecimal digits with an optional `0x`. -/
def parseHexInt (t : Bytes) : Option Nat :=
  let d := match t with
    | 48 :: c :: r => if c = 120 ∨ c = 88 then r else t
    | _ => t
  if d ≠ [] ∧ d.all isHexDigit then
    some (d.foldl (fun a c => a * 16 +
      (if 48 ≤ c ∧ c ≤ 57 then c.toNat - 48 else if 97 ≤ c then c.toNat - 87 else c.toNat - 55)) 0)
  else none

/-- `int(text)` restricted to what the regular expression lets through. -/
def parseDecInt (t : Bytes) : Option Nat :=
  if t ≠ [] ∧ t.all Py.isDigit then some (Py.digitsVal t) else none

/-- The entries of `htmlentitydefs.name2codepoint` below 256 (for the others `chr` raises
`ValueError`, which leaves the text unchanged, `utils/text.py:20-22`). -/
def entityNames : List (Bytes × UInt8) :=
  [(b!"quot", 34), (b!"amp", 38), (b!"lt", 60), (b!"gt", 62),
   (b!"nbsp", 160), (b!"iexcl", 161), (b!"cent", 162), (b!"pound", 163), (b!"curren", 164),
   (b!"yen", 165), (b!"brvbar", 166), (b!"sect", 167), (b!"uml", 168), (b!"copy", 169),
   (b!"ordf", 170), (b!"laquo", 171), (b!"not", 172), (b!"shy", 173), (b!"reg", 174),
   (b!"macr", 175), (b!"deg", 176), (b!"plusmn", 177), (b!"sup2", 178), (b!"sup3", 179),
   (b!"acute", 180), (b!"micro", 181), (b!"para", 182), (b!"middot", 183), (b!"cedil", 184),
   (b!"sup1", 185), (b!"ordm", 186), (b!"raquo", 187), (b!"frac14", 188), (b!"frac12", 189),
   (b!"frac34", 190), (b!"iquest", 191), (b!"Agrave", 192), (b!"Aacute", 193), (b!"Acirc", 194),
   (b!"Atilde", 195), (b!"Auml", 196), (b!"Aring", 197), (b!"AElig", 198), (b!"Ccedil", 199),
   (b!"Egrave", 200), (b!"Eacute", 201), (b!"Ecirc", 202), (b!"Euml", 203), (b!"Igrave", 204),
   (b!"Iacute", 205), (b!"Icirc", 206), (b!"Iuml", 207), (b!"ETH", 208), (b!"Ntilde", 209),
   (b!"Ograve", 210), (b!"Oacute", 211), (b!"Ocirc", 212), (b!"Otilde", 213), (b!"Ouml", 214),
   (b!"times", 215), (b!"Oslash", 216), (b!"Ugrave", 217), (b!"Uacute", 218), (b!"Ucirc", 219),
   (b!"Uuml", 220), (b!"Yacute", 221), (b!"THORN", 222), (b!"szlig", 223), (b!"agrave", 224),
   (b!"aacute", 225), (b!"acirc", 226), (b!"atilde", 227), (b!"auml", 228), (b!"aring", 229),
   (b!"aelig", 230), (b!"ccedil", 231), (b!"egrave", 232), (b!"eacute", 233), (b!"ecirc", 234),
   (b!"euml", 235), (b!"igrave", 236), (b!"iacute", 237), (b!"icirc", 238), (b!"iuml", 239),
   (b!"eth", 240), (b!"ntilde", 241), (b!"ograve", 242), (b!"oacute", 243), (b!"ocirc", 244),
   (b!"otilde", 245), (b!"ouml", 246), (b!"divide", 247), (b!"oslash", 248), (b!"ugrave", 249),
   (b!"uacute", 250), (b!"ucirc", 251), (b!"uuml", 252), (b!"yacute", 253), (b!"thorn", 254),
   (b!"yuml", 255)]

/-- `chr(c)`: a byte below 256, `ValueError` (`ok none`) up to the largest C `long`,
`OverflowError` above. -/
def pyChr (c : Nat) : Except Exc (Option UInt8) :=
  if c < 256 then .ok (some (UInt8.ofNat c))
  else if c < 2 ^ 63 then .ok none
  else .error .overflowError

/-- `_replace_entity` (`utils/text.py:6-22`) for the text between `&` and `;`; `none` leaves
the entity as it is. -/
def replaceEntity (t : Bytes) : Except Exc (Option UInt8) :=
  match t with
  | 35 :: r =>
    let c := match r with
      | x :: r' => if x = 120 ∨ x = 88 then parseHexInt r' else parseDecInt r
      | [] => none
    match c with
    | none => .ok none
    | some c => pyChr c
  | _ => .ok ((entityNames.find? (fun p => p.1 = t)).map Prod.snd)

/-- The longest prefix of `t` before the first `;`, if there is one. -/
def uptoSemi : Bytes → Option Bytes
  | [] => none
  | c :: t => if c = 59 then some [] else (uptoSemi t).map (c :: ·)

/-- The substitution loop of `_entity_re.sub` (`utils/text.py:4,25`).  A match at `&` extends
to the first `;` after it, because neither `;` nor `&` can occur inside. -/
def unescapeLoop : (fuel : Nat) → Bytes → Except Exc Bytes
  | 0, s => .ok s
  | _ + 1, [] => .ok []
  | fuel + 1, c :: t =>
    let plain : Except Exc Bytes :=
      match unescapeLoop fuel t with
      | .error e => .error e
      | .ok r => .ok (c :: r)
    if c = 38 then
      match uptoSemi t with
      | none => plain
      | some body =>
        if isEntityBody body then
          match replaceEntity body with
          | .error e => .error e
          | .ok o =>
            match unescapeLoop fuel (t.drop (body.length + 1)) with
            | .error e => .error e
            | .ok r => .ok ((match o with
              | some b => [b]
              | none => c :: body ++ [59]) ++ r)
        else plain
    else plain

/-- `unescape_entities` (`utils/text.py:24-25`) on a byte string. -/
def unescapeEntities (s : Bytes) : Except Exc Bytes := unescapeLoop (s.length + 1) s

end Verif
