import Verif.Py.Bytes
/-!
# Regular expressions of Python 2.7 (module `re`, library)

The part of the syntax that the package uses, read from the source text of an expression, and what a match is.
Texts are lists of code points; without `re.UNICODE` the classes `\d` and `\w` are about ASCII for both string
types.  A match is a relation here: if there is a match, Python finds one; which one it prefers when there
are several is not said (the theorems show that there is only one, or ask only whether there is one).
-/

namespace Verif

/-- A set of characters: ranges, perhaps all others. -/
structure CharSet where
  neg : Bool := false
  ranges : List (Nat × Nat)
deriving DecidableEq, Repr

/-- Whether a character is in the set. -/
def CharSet.has (s : CharSet) (c : Nat) : Bool := (s.ranges.any fun r => r.1 ≤ c && c ≤ r.2) != s.neg

/-- Expressions. -/
inductive Re where
  /-- one character of a set -/
  | set (s : CharSet)
  /-- `^` and `\A`: at the beginning of the text -/
  | start
  /-- `$`: at the end, or before a line feed at the end -/
  | dollar
  /-- `\Z`: at the end -/
  | stop
  | empty
  | seq (a b : Re)
  | alt (a b : Re)
  /-- `*`, `+`, `?`, `{m}` and `{m,n}` -/
  | rep (r : Re) (lo : Nat) (hi : Option Nat)
  /-- a group; without a name `name` is empty -/
  | group (name : Bytes) (r : Re)
deriving DecidableEq, Repr

/-- The groups of a match in the order in which they begin, with the text that they matched. -/
abbrev Caps := List (Bytes × List Nat)

/-- `n` matches one after another. -/
def Re.Iter (R : Bool → List Nat → List Nat → Caps → Prop) : Nat → Bool → List Nat → List Nat → Caps → Prop
  | 0, _, s, rest, caps => rest = s ∧ caps = []
  | n + 1, first, s, rest, caps => ∃ m c1 c2, R first s m c1 ∧
      Re.Iter R n (first && m.length == s.length) m rest c2 ∧ caps = c1 ++ c2

/-- The expression matches at the start of `s` and leaves `rest`; `first` means that `s` is the whole text.  (A group
in a repetition appears once for every round.) -/
def Re.Eats : Re → (first : Bool) → (s rest : List Nat) → Caps → Prop
  | .set c, _, s, rest, caps => ∃ x, s = x :: rest ∧ c.has x = true ∧ caps = []
  | .start, first, s, rest, caps => first = true ∧ rest = s ∧ caps = []
  | .dollar, _, s, rest, caps => (s = [] ∨ s = [10]) ∧ rest = s ∧ caps = []
  | .stop, _, s, rest, caps => s = [] ∧ rest = s ∧ caps = []
  | .empty, _, s, rest, caps => rest = s ∧ caps = []
  | .seq a b, first, s, rest, caps => ∃ m c1 c2, a.Eats first s m c1 ∧
      b.Eats (first && m.length == s.length) m rest c2 ∧ caps = c1 ++ c2
  | .alt a b, first, s, rest, caps => a.Eats first s rest caps ∨ b.Eats first s rest caps
  | .rep r lo hi, first, s, rest, caps => ∃ n, lo ≤ n ∧ (∀ h, hi = some h → n ≤ h) ∧
      Re.Iter r.Eats n first s rest caps
  | .group name r, first, s, rest, caps => ∃ t c, s = t ++ rest ∧ r.Eats first s rest c ∧ caps = (name, t) :: c

/-- `re.match(s)`: a match at the beginning of `s`. -/
def Re.Match (r : Re) (s : List Nat) (caps : Caps) : Prop := ∃ rest, r.Eats true s rest caps

/-- `re.sub(repl, s)`, for expressions that do not match the empty text: from left to right every match is replaced,
everything else stays. -/
inductive Re.Sub (r : Re) (repl : Caps → (text out : List Nat) → Prop) : (first : Bool) → List Nat → List Nat → Prop where
  | nil {f} : Re.Sub r repl f [] []
  | skip {f c t o} : (¬ ∃ rest caps, r.Eats f (c :: t) rest caps) → Re.Sub r repl false t o →
      Re.Sub r repl f (c :: t) (c :: o)
  | hit {f m rest caps o o'} : m ≠ [] → r.Eats f (m ++ rest) rest caps → repl caps m o → Re.Sub r repl false rest o' →
      Re.Sub r repl f (m ++ rest) (o ++ o')

/-- `re.split(s)`, for expressions without groups that do not match the empty text: the pieces between the matches,
from left to right.  With `some n` there are at most `n` cuts. -/
inductive Re.Split (r : Re) : (max : Option Nat) → (first : Bool) → List Nat → List (List Nat) → Prop where
  | full {f s} : Re.Split r (some 0) f s [s]
  | last {n f s} : (∀ a b, s = a ++ b → ¬ ∃ rest caps, r.Eats (f && a.isEmpty) b rest caps) → Re.Split r n f s [s]
  | cut {n f s a m rest caps ps} : n ≠ some 0 → s = a ++ (m ++ rest) → m ≠ [] →
      (∀ a1 a2, a = a1 ++ a2 → a2 ≠ [] → ¬ ∃ rest' caps', r.Eats (f && a1.isEmpty) (a2 ++ (m ++ rest)) rest' caps') →
      r.Eats (f && a.isEmpty) (m ++ rest) rest caps → Re.Split r (n.map (· - 1)) false rest ps →
      Re.Split r n f s (a :: ps)

/-! ## Reading an expression -/

/-- `\d`. -/
def digitRanges : List (Nat × Nat) := [(48, 57)]

/-- `\w`. -/
def wordRanges : List (Nat × Nat) := [(97, 122), (65, 90), (48, 57), (95, 95)]

/-- A letter or digit (after a backslash these have a meaning of their own). -/
def reAlnum (c : UInt8) : Bool := decide ((97 ≤ c ∧ c ≤ 122) ∨ (65 ≤ c ∧ c ≤ 90) ∨ (48 ≤ c ∧ c ≤ 57))

/-- The items of a set up to the closing bracket. -/
def readSet : (fuel : Nat) → Bytes → Option (List (Nat × Nat) × Bytes)
  | 0, _ => none
  | _ + 1, [] => none
  | fuel + 1, c :: t =>
    let item (rs : List (Nat × Nat)) (t : Bytes) := (readSet fuel t).map fun p => (rs ++ p.1, p.2)
    if c = 93 then some ([], t)
    else if c = 92 then
      match t with
      | 100 :: t => item digitRanges t
      | 119 :: t => item wordRanges t
      | x :: t => if reAlnum x then none else item [(x.toNat, x.toNat)] t
      | [] => none
    else
      match t with
      | 45 :: d :: u =>
        if d = 93 ∨ d = 92 then item [(c.toNat, c.toNat)] t
        else if c ≤ d then item [(c.toNat, d.toNat)] u
        else none
      | _ => item [(c.toNat, c.toNat)] t

/-- A decimal number. -/
def readNum (s : Bytes) : Nat × Bytes :=
  ((s.takeWhile Py.isDigit).foldl (fun n c => n * 10 + (c.toNat - 48)) 0, s.dropWhile Py.isDigit)

/-- What may follow an item: a repetition. -/
def readQuant (r : Re) (s : Bytes) : Option (Re × Bytes) :=
  match s with
  | 42 :: t => some (.rep r 0 none, t)
  | 43 :: t => some (.rep r 1 none, t)
  | 63 :: t => some (.rep r 0 (some 1), t)
  | 123 :: t =>
    match readNum t with
    | (m, 125 :: u) => some (.rep r m (some m), u)
    | (m, 44 :: u) =>
      match readNum u with
      | (n, 125 :: v) => some (.rep r m (some n), v)
      | _ => none
    | _ => none
  | t => some (r, t)

mutual
/-- An expression up to the end or a closing parenthesis. -/
def readAlt : (fuel : Nat) → Bytes → Option (Re × Bytes)
  | 0, _ => none
  | fuel + 1, s =>
    match readSeq fuel s with
    | none => none
    | some (a, 124 :: t) => (readAlt fuel t).map fun p => (.alt a p.1, p.2)
    | some (a, t) => some (a, t)

/-- Items one after another. -/
def readSeq : (fuel : Nat) → Bytes → Option (Re × Bytes)
  | 0, _ => none
  | _ + 1, [] => some (.empty, [])
  | fuel + 1, c :: t =>
    if c = 124 ∨ c = 41 then some (.empty, c :: t)
    else
      match readItem fuel (c :: t) with
      | none => none
      | some (a, t) =>
        match readQuant a t with
        | none => none
        | some (a, t) =>
          if t.head?.any (· ∈ b!"*+?{") then none
          else (readSeq fuel t).map fun p => (.seq a p.1, p.2)

/-- One item. -/
def readItem : (fuel : Nat) → Bytes → Option (Re × Bytes)
  | 0, _ => none
  | _ + 1, [] => none
  | fuel + 1, c :: t =>
    if c = 40 then
      let body (f : Re → Re) (t : Bytes) : Option (Re × Bytes) :=
        match readAlt fuel t with
        | some (r, 41 :: u) => some (f r, u)
        | _ => none
      match t with
      | 63 :: 58 :: u => body id u
      | 63 :: 80 :: 60 :: u =>
        match u.dropWhile reAlnum with
        | 62 :: v => body (.group (u.takeWhile reAlnum)) v
        | _ => none
      | 63 :: _ => none
      | u => body (.group []) u
    else if c = 91 then
      match t with
      | 94 :: u => (readSet fuel u).map fun p => (.set ⟨true, p.1⟩, p.2)
      | u => (readSet fuel u).map fun p => (.set ⟨false, p.1⟩, p.2)
    else if c = 92 then
      match t with
      | 100 :: u => some (.set ⟨false, digitRanges⟩, u)
      | 119 :: u => some (.set ⟨false, wordRanges⟩, u)
      | 65 :: u => some (.start, u)
      | 90 :: u => some (.stop, u)
      | x :: u => if reAlnum x then none else some (.set ⟨false, [(x.toNat, x.toNat)]⟩, u)
      | [] => none
    else if c = 94 then some (.start, t)
    else if c = 36 then some (.dollar, t)
    else if c = 46 then some (.set ⟨true, [(10, 10)]⟩, t)
    else if c ∈ b!"*+?{" then none
    else some (.set ⟨false, [(c.toNat, c.toNat)]⟩, t)
end

/-- `re.compile(s)`; `none` is an error, or something not modelled. -/
def Re.compile (s : Bytes) : Option Re :=
  match readAlt (3 * s.length + 3) s with
  | some (r, []) => some r
  | _ => none

/-- What `re.X` takes out of an expression: white space and comments outside sets (`set` tells whether the text is inside
one).  A backslash keeps what follows. -/
def stripVerbose (set comment : Bool) : Bytes → Bytes
  | [] => []
  | c :: t =>
    if comment then stripVerbose set (c ≠ 10) t
    else if c = 92 then
      match t with
      | d :: u => c :: d :: stripVerbose set false u
      | [] => [c]
    else if set then c :: stripVerbose (c ≠ 93) false t
    else if Py.isSpace c then stripVerbose false false t
    else if c = 35 then stripVerbose false true t
    else c :: stripVerbose (c = 91) false t

/-- `re.compile(s, re.X)`. -/
def Re.compileX (s : Bytes) : Option Re := Re.compile (stripVerbose false false s)

end Verif
