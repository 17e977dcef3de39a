import Verif.Py.Bytes
/-!
# Header blocks and host names, independently of the code
-/

namespace Verif.Spec

/-- Lower-case letters, digits, dot and hyphen. -/
def nameByte (c : UInt8) : Prop := c ∈ b!"abcdefghijklmnopqrstuvwxyz0123456789.-"

/-- Lower-case hexadecimal digits. -/
def hexByte (c : UInt8) : Prop := c ∈ b!"abcdef0123456789"

/-- Decimal digits. -/
def digitByte (c : UInt8) : Prop := c ∈ b!"0123456789"

/-- A host name or IPv4 address. -/
def HostName (b : Bytes) : Prop := b ≠ [] ∧ ∀ c ∈ b, nameByte c

/-- An IPv6 address in brackets. -/
def HostIp6 (b : Bytes) : Prop :=
  ∃ h t, b = [91] ++ h ++ [58] ++ t ++ [93] ∧ (∀ c ∈ h, hexByte c) ∧ t ≠ [] ∧
    ∀ c ∈ t, hexByte c ∨ c = 46 ∨ c = 58

/-- `text` is `domain` or `domain:port`; without a port `port` is empty. -/
def HostForm (text domain port : Bytes) : Prop :=
  (HostName domain ∨ HostIp6 domain) ∧ (∀ c ∈ port, digitByte c) ∧
  ((port = [] ∧ text = domain) ∨ (port ≠ [] ∧ text = domain ++ [58] ++ port))

/-- `d` is `domain` without its trailing dot, if it has one. -/
def DotRemoved (domain d : Bytes) : Prop := domain = d ++ [46] ∨ (domain = d ∧ ∀ x, domain ≠ x ++ [46])

/-- ASCII text. -/
def Ascii (s : Bytes) : Prop := ∀ c ∈ s, c < 128

/-- `l` is a line: followed by CRLF it contains the first CRLF that does not start at its first
byte. -/
def Line (l : Bytes) : Prop := l ≠ [] ∧ ∀ a b, l ++ [13, 10] = a ++ [13, 10] ++ b → a = [] ∨ a = l

/-- `block` consists of these lines, each with its CRLF, and a rest in which no further line
ends. -/
inductive Lines : Bytes → List Bytes → Bytes → Prop where
  | nil (tail) : (∀ a b, tail = a ++ [13, 10] ++ b → a = []) → Lines tail [] tail
  | cons {l block ls tail} : Line l → Lines block ls tail →
      Lines (l ++ [13, 10] ++ block) (l :: ls) tail

/-- `line` is a header with the given name and value: name, colon, value with optional white space
around it. -/
def HeaderLine (line name value : Bytes) : Prop :=
  58 ∉ name ∧ Ascii name ∧ Ascii value ∧
  ∃ l r, line = name ++ [58] ++ l ++ value ++ r ∧ (∀ c ∈ l ++ r, c ∈ b!" \t\n\r" ∨ c = 11 ∨ c = 12) ∧
    (∀ c, value.head? = some c ∨ value.getLast? = some c → ¬ (c ∈ b!" \t\n\r" ∨ c = 11 ∨ c = 12))

end Verif.Spec
