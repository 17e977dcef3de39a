import Verif.Model.Url
/-!
# Specification of URL splitting and of safe redirect targets

Written on the text of the URL, without reference to the parsing functions.
-/

namespace Verif.Spec

/-- A component `c` written with its delimiter `d`; an empty component may be absent together
with its delimiter. -/
def Part (d c text : UStr) : Prop := text = d ++ c ∨ (text = [] ∧ c = [])

/-- The characters of URL schemes. -/
def schemeLetters : Bytes := b!"abcdefghijklmnopqrstuvwxyzABCDEFGHIJKLMNOPQRSTUVWXYZ0123456789+-."

/-- The small letter for a capital letter; everything else stays. -/
def lowerLetter (c : Nat) : Nat :=
  if c ∈ (b!"ABCDEFGHIJKLMNOPQRSTUVWXYZ").map UInt8.toNat then c + 32 else c

/-- `t` can be a URL scheme. -/
def SchemeName (t : UStr) : Prop := t ≠ [] ∧ ∀ c ∈ t, c ∈ schemeLetters.map UInt8.toNat

/-- The scheme written in front of the URL, in any case. -/
def SchemePart (scheme text : UStr) : Prop :=
  (∃ t, SchemeName t ∧ text = t ++ [58] ∧ scheme = t.map lowerLetter) ∨ (text = [] ∧ scheme = [])

/-- `url` begins with a scheme and a colon. -/
def HasScheme (url : UStr) : Prop := ∃ t r, SchemeName t ∧ url = t ++ 58 :: r

/-- `url` is the text of the six components.  `up`: the schemes with parameters. -/
structure UrlParts (up : List UStr) (url : UStr) (p : UrlParse) : Prop where
  /-- the components with their delimiters make up the URL -/
  text : ∃ S N P Q F, url = S ++ N ++ p.path ++ P ++ Q ++ F ∧
    SchemePart p.scheme S ∧ Part [47, 47] p.netloc N ∧ Part [59] p.params P ∧
    Part [63] p.query Q ∧ Part [35] p.fragment F ∧
    -- a `//` after the scheme always starts the host part
    (N = [] → ¬ [47, 47] <+: p.path ++ P ++ Q ++ F)
  /-- a scheme is recognised whenever there is one -/
  scheme : HasScheme url → p.scheme ≠ []
  netloc_clean : ∀ c ∈ p.netloc, c ≠ 47 ∧ c ≠ 63 ∧ c ≠ 35
  path_clean : ∀ c ∈ p.path, c ≠ 63 ∧ c ≠ 35
  params_clean : ∀ c ∈ p.params, c ≠ 47 ∧ c ≠ 63 ∧ c ≠ 35
  query_clean : ∀ c ∈ p.query, c ≠ 35
  /-- parameters are split off for the schemes that have them, and only for those -/
  params : p.scheme ∈ up → ∀ l r, p.path = l ++ 59 :: r → 47 ∈ r
  no_params : p.scheme ∉ up → p.params = []

/-- The host part of what follows `//`: everything up to the first `/`, `?` or `#`. -/
def hostOf (r : UStr) : UStr := r.takeWhile (fun c => !(c == 47 || c == 63 || c == 35))

/-- The schemes a redirect may use. -/
def okSchemes (https : Bool) : List UStr :=
  if https then [[104, 116, 116, 112, 115]] else [[104, 116, 116, 112], [104, 116, 116, 112, 115]]

/-- `url` is a safe redirect target for the allowed hosts. -/
structure SafeTarget (D : UData) (allowed : UStr → Prop) (https : Bool) (url : UStr) : Prop where
  three : ¬ [47, 47, 47] <+: url
  control : ∀ c t, url = c :: t → D.isControl c = false
  /-- scheme-relative URLs: no host, or an allowed one and `http` is acceptable -/
  relative : ∀ r, url = 47 :: 47 :: r → hostOf r = [] ∨ (allowed (hostOf r) ∧ https = false)
  /-- URLs with a scheme: an acceptable scheme and an allowed, non-empty host -/
  absolute : ∀ t r, SchemeName t → url = t ++ 58 :: r →
    t.map lowerLetter ∈ okSchemes https ∧
    ∃ r', r = 47 :: 47 :: r' ∧ hostOf r' ≠ [] ∧ allowed (hostOf r')

/-- Square brackets in the host part come in both kinds or not at all. -/
structure BracketsOk (url : UStr) : Prop where
  relative : ∀ r, url = 47 :: 47 :: r → (91 ∈ hostOf r ↔ 93 ∈ hostOf r)
  absolute : ∀ t r, SchemeName t → url = t ++ 58 :: 47 :: 47 :: r →
    (91 ∈ hostOf r ↔ 93 ∈ hostOf r)

/-- The given collection of allowed hosts contains `h`. -/
def allowedBy : Hosts → UStr → Prop
  | .none, _ => False
  | .str s, h => h = s
  | .coll hs, h => h ∈ hs
  | .uni _, _ => False

end Verif.Spec
