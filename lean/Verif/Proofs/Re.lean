import Verif.Model.Regex
import Verif.Model.Date
import Verif.Proofs.Quote
/-!
# Lemmas about regular expressions
-/

namespace Verif

theorem Re.iter_set (c : CharSet) : ∀ (n : Nat) (f : Bool) (s rest : List Nat) (caps : Caps),
    Re.Iter (Re.set c).Eats n f s rest caps ↔
      ∃ t, s = t ++ rest ∧ t.length = n ∧ (∀ x ∈ t, c.has x = true) ∧ caps = []
  | 0, f, s, rest, caps => by
    simp only [Re.Iter]
    constructor
    · rintro ⟨rfl, rfl⟩
      exact ⟨[], by simp⟩
    · rintro ⟨t, rfl, h, -, rfl⟩
      cases t with
      | nil => simp
      | cons => simp at h
  | n + 1, f, s, rest, caps => by
    simp only [Re.Iter]
    constructor
    · rintro ⟨m, c1, c2, ⟨x, rfl, hx, rfl⟩, h, rfl⟩
      obtain ⟨t, rfl, hn, hall, rfl⟩ := (Re.iter_set c n _ _ _ _).1 h
      refine ⟨x :: t, rfl, by simp [hn], ?_, rfl⟩
      intro y hy
      rcases List.mem_cons.1 hy with rfl | hy
      · exact hx
      · exact hall y hy
    · rintro ⟨t, rfl, hn, hall, rfl⟩
      cases t with
      | nil => simp at hn
      | cons x t =>
        refine ⟨t ++ rest, [], [], ⟨x, rfl, hall x (by simp), rfl⟩, ?_, rfl⟩
        exact (Re.iter_set c n _ _ _ _).2 ⟨t, rfl, by simpa using hn, fun y hy => hall y (by simp [hy]), rfl⟩

theorem Re.rep_set (c : CharSet) (lo : Nat) (hi : Option Nat) (f : Bool) (s rest : List Nat) (caps : Caps) :
    (Re.rep (.set c) lo hi).Eats f s rest caps ↔
      ∃ t, s = t ++ rest ∧ lo ≤ t.length ∧ (∀ h, hi = some h → t.length ≤ h) ∧ (∀ x ∈ t, c.has x = true) ∧ caps = [] := by
  simp only [Re.Eats]
  constructor
  · rintro ⟨n, hlo, hhi, h⟩
    obtain ⟨t, rfl, hn, hall, rfl⟩ := (Re.iter_set c n _ _ _ _).1 h
    subst hn
    exact ⟨t, rfl, hlo, hhi, hall, rfl⟩
  · rintro ⟨t, rfl, hlo, hhi, hall, rfl⟩
    exact ⟨t.length, hlo, hhi, (Re.iter_set c _ _ _ _ _).2 ⟨t, rfl, rfl, hall, rfl⟩⟩

theorem Re.opt (r : Re) (f : Bool) (s rest : List Nat) (caps : Caps) :
    (Re.rep r 0 (some 1)).Eats f s rest caps ↔ (rest = s ∧ caps = []) ∨ r.Eats f s rest caps := by
  simp only [Re.Eats]
  constructor
  · rintro ⟨n, -, h1, h⟩
    have := h1 1 rfl
    match n, this, h with
    | 0, _, h => exact .inl h
    | 1, _, h =>
      obtain ⟨m, c1, c2, h0, ⟨rfl, rfl⟩, rfl⟩ := h
      exact .inr (by simpa using h0)
  · rintro (h | h)
    · exact ⟨0, Nat.le_refl _, fun _ _ => Nat.zero_le _, h⟩
    · exact ⟨1, Nat.zero_le _, fun k hk => by cases hk; exact Nat.le_refl _, rest, caps, [], h, ⟨rfl, rfl⟩, by simp⟩

/-- Every part of a byte string is a byte string. -/
theorem toU_append_iff (s : Bytes) (t rest : List Nat) :
    Py.toU s = t ++ rest ↔ ∃ a b, s = a ++ b ∧ t = Py.toU a ∧ rest = Py.toU b := by
  constructor
  · intro h
    obtain ⟨a, b, rfl, rfl, rfl⟩ := List.map_eq_append_iff.1 h
    exact ⟨a, b, rfl, rfl, rfl⟩
  · rintro ⟨a, b, rfl, rfl, rfl⟩
    exact List.map_append ..

theorem toU_cons_iff (s : Bytes) (x : Nat) (rest : List Nat) :
    Py.toU s = x :: rest ↔ ∃ c b, s = c :: b ∧ x = c.toNat ∧ rest = Py.toU b := by
  constructor
  · intro h
    obtain ⟨a, b, rfl, rfl, rfl⟩ := List.map_eq_cons_iff.1 h
    exact ⟨a, b, rfl, rfl, rfl⟩
  · rintro ⟨a, b, rfl, rfl, rfl⟩
    rfl

theorem toU_inj {a b : Bytes} : Py.toU a = Py.toU b ↔ a = b := by
  constructor
  · intro h
    exact (List.map_injective_iff.2 fun x y h => UInt8.toNat_inj.1 h) h
  · rintro rfl
    rfl

/-- The expression means the matching function `g`: what is taken and what is left are determined. -/
def Det (r : Re) (g : Bytes → Option (Caps × Bytes)) : Prop :=
  ∀ f s rest caps, r.Eats f (Py.toU s) rest caps ↔ ∃ u, g s = some (caps, u) ∧ rest = Py.toU u

theorem Det.empty : Det .empty (fun s => some ([], s)) := by
  intro f s rest caps
  constructor
  · rintro ⟨rfl, rfl⟩
    exact ⟨s, rfl, rfl⟩
  · rintro ⟨u, h, rfl⟩
    cases h
    exact ⟨rfl, rfl⟩

theorem Det.dollar : Det .dollar (fun s => if atEnd s then some ([], s) else none) := by
  intro f s rest caps
  have key : (Py.toU s = [] ∨ Py.toU s = [10]) ↔ atEnd s = true := by
    have h1 : Py.toU s = [] ↔ s = [] := by rw [← toU_inj (a := s)]; rfl
    have h2 : Py.toU s = [10] ↔ s = [10] := by rw [← toU_inj (a := s)]; rfl
    rw [h1, h2]
    simp [atEnd]
  simp only [Re.Eats, key]
  constructor
  · rintro ⟨h, rfl, rfl⟩
    exact ⟨s, if_pos h, rfl⟩
  · rintro ⟨u, h, rfl⟩
    split at h
    · rename_i h'
      cases h
      exact ⟨h', rfl, rfl⟩
    · cases h

theorem Det.seq {a b : Re} {g h : Bytes → Option (Caps × Bytes)} (ha : Det a g) (hb : Det b h) :
    Det (.seq a b) (fun s => (g s).bind fun p => (h p.2).map fun q => (p.1 ++ q.1, q.2)) := by
  intro f s rest caps
  simp only [Re.Eats]
  constructor
  · rintro ⟨m, c1, c2, h1, h2, rfl⟩
    obtain ⟨u, e1, rfl⟩ := (ha _ _ _ _).1 h1
    obtain ⟨v, e2, rfl⟩ := (hb _ _ _ _).1 h2
    exact ⟨v, by simp [e1, e2], rfl⟩
  · rintro ⟨u, h', rfl⟩
    obtain ⟨p, e1, h'⟩ := Option.bind_eq_some_iff.1 h'
    obtain ⟨q, e2, h'⟩ := Option.map_eq_some_iff.1 h'
    cases h'
    exact ⟨Py.toU p.2, p.1, q.1, (ha _ _ _ _).2 ⟨_, e1, rfl⟩, (hb _ _ _ _).2 ⟨_, e2, rfl⟩, rfl⟩

theorem takeN_eq_some {p : UInt8 → Bool} {n : Nat} {s t u : Bytes} :
    takeN p n s = some (t, u) ↔ s = t ++ u ∧ t.length = n ∧ t.all p = true := by
  unfold takeN
  constructor
  · intro h
    split at h
    · rename_i h'
      cases h
      exact ⟨(List.take_append_drop n s).symm, by simp [h'.1], h'.2⟩
    · cases h
  · rintro ⟨rfl, rfl, h⟩
    rw [if_pos ⟨by simp, by simpa using h⟩]
    simp

theorem Det.repN (c : CharSet) (p : UInt8 → Bool) (hp : ∀ b : UInt8, c.has b.toNat = p b) (n : Nat) :
    Det (.rep (.set c) n (some n)) (fun s => (takeN p n s).map fun q => ([], q.2)) := by
  intro f s rest caps
  rw [Re.rep_set]
  constructor
  · rintro ⟨t, h, h1, h2, h3, rfl⟩
    obtain ⟨a, b, rfl, rfl, rfl⟩ := (toU_append_iff _ _ _).1 h
    refine ⟨b, Option.map_eq_some_iff.2 ⟨(a, b), takeN_eq_some.2 ⟨rfl, ?_, ?_⟩, rfl⟩, rfl⟩
    · have := h2 n rfl
      simp only [Py.toU, List.length_map] at h1 this
      omega
    · refine List.all_eq_true.2 fun x hx => ?_
      rw [← hp]
      exact h3 _ (List.mem_map_of_mem hx)
  · rintro ⟨u, h, rfl⟩
    obtain ⟨⟨t, v⟩, e, h0⟩ := Option.map_eq_some_iff.1 h
    cases h0
    clear h
    obtain ⟨rfl, rfl, h⟩ := takeN_eq_some.1 e
    refine ⟨Py.toU t, (toU_append_iff _ _ _).2 ⟨_, _, rfl, rfl, rfl⟩, by simp [Py.toU], ?_, ?_, rfl⟩
    · intro h e
      cases e
      simp [Py.toU]
    · intro x hx
      obtain ⟨y, hy, rfl⟩ := List.mem_map.1 hx
      rw [hp]
      exact List.all_eq_true.1 h y hy

theorem Det.set (c : CharSet) (p : UInt8 → Bool) (hp : ∀ b : UInt8, c.has b.toNat = p b) :
    Det (.set c) (fun s => (takeN p 1 s).map fun q => ([], q.2)) := by
  intro f s rest caps
  rw [← Det.repN c p hp 1 f s rest caps, Re.rep_set]
  simp only [Re.Eats]
  constructor
  · rintro ⟨x, h, hx, rfl⟩
    exact ⟨[x], h, by simp, fun k hk => by cases hk; simp, by simpa using hx, rfl⟩
  · rintro ⟨t, h, h1, h2, h3, rfl⟩
    have := h2 1 rfl
    match t, h1, this, h3, h with
    | [x], _, _, h3, h => exact ⟨x, h, h3 x (by simp), rfl⟩

/-- A group: what it matched is what is gone. -/
theorem Det.group {r : Re} {g : Bytes → Option (Caps × Bytes)} (h : Det r g) (name : Bytes)
    (hg : ∀ s c u, g s = some (c, u) → ∃ t, s = t ++ u) :
    Det (.group name r) (fun s => (g s).map fun q => ((name, Py.toU (s.take (s.length - q.2.length))) :: q.1, q.2)) := by
  intro f s rest caps
  simp only [Re.Eats]
  constructor
  · rintro ⟨t, c, e, h1, rfl⟩
    obtain ⟨u, h2, rfl⟩ := (h _ _ _ _).1 h1
    obtain ⟨a, b, rfl, rfl, e'⟩ := (toU_append_iff _ _ _).1 e
    cases toU_inj.1 e'
    exact ⟨u, by simp [h2], rfl⟩
  · rintro ⟨u, h', rfl⟩
    obtain ⟨⟨c, v⟩, e, h'⟩ := Option.map_eq_some_iff.1 h'
    cases h'
    obtain ⟨t, rfl⟩ := hg _ _ _ e
    exact ⟨Py.toU t, c, (toU_append_iff _ _ _).2 ⟨_, _, rfl, rfl, rfl⟩, (h _ _ _ _).2 ⟨_, e, rfl⟩, by simp⟩

/-- A group of `n` characters of a class. -/
theorem Det.groupN (name : Bytes) (c : CharSet) (p : UInt8 → Bool) (hp : ∀ b : UInt8, c.has b.toNat = p b) (n : Nat) :
    Det (.group name (.seq (.rep (.set c) n (some n)) .empty))
      (fun s => (takeN p n s).map fun q => ([(name, Py.toU q.1)], q.2)) := by
  intro f s rest caps
  rw [Det.group ((Det.repN c p hp n).seq Det.empty) name ?_ f s rest caps]
  · have : ∀ s, (((takeN p n s).map fun q => (([] : Caps), q.2)).bind fun p =>
        (some (([] : Caps), p.2)).map fun q => (p.1 ++ q.1, q.2)) = (takeN p n s).map fun q => ([], q.2) := by
      intro s
      cases takeN p n s <;> rfl
    simp only [this]
    cases e : takeN p n s with
    | none => simp
    | some q =>
      obtain ⟨t, u⟩ := q
      obtain ⟨rfl, -, -⟩ := takeN_eq_some.1 e
      simp
  · intro s c u h
    cases e : takeN p n s with
    | none => simp [e] at h
    | some q =>
      obtain ⟨t, v⟩ := q
      obtain ⟨rfl, -, -⟩ := takeN_eq_some.1 e
      simp [e] at h
      exact ⟨t, by rw [h.2]⟩

/-- A match from the beginning. -/
theorem Det.match {r : Re} {g : Bytes → Option (Caps × Bytes)} (h : Det r g) (s : Bytes) (caps : Caps) :
    (Re.seq .start r).Match (Py.toU s) caps ↔ (g s).map Prod.fst = some caps := by
  unfold Re.Match
  constructor
  · rintro ⟨rest, m, c1, c2, ⟨-, rfl, rfl⟩, h2, rfl⟩
    obtain ⟨u, e, -⟩ := (h _ _ _ _).1 h2
    simp [e]
  · intro e0
    obtain ⟨⟨c, u⟩, e, rfl⟩ := Option.map_eq_some_iff.1 e0
    exact ⟨Py.toU u, _, [], c, ⟨rfl, rfl, rfl⟩, (h _ _ _ _).2 ⟨u, e, rfl⟩, rfl⟩

/-- Without anchors an expression is a set of texts with their groups. -/
def Lang (r : Re) (P : Bytes → Caps → Prop) : Prop :=
  ∀ f s rest caps, r.Eats f (Py.toU s) rest caps ↔ ∃ t u, s = t ++ u ∧ rest = Py.toU u ∧ P t caps

theorem Lang.empty : Lang .empty (fun t caps => t = [] ∧ caps = []) := by
  intro f s rest caps
  constructor
  · rintro ⟨rfl, rfl⟩
    exact ⟨[], s, rfl, rfl, rfl, rfl⟩
  · rintro ⟨t, u, rfl, rfl, rfl, rfl⟩
    exact ⟨rfl, rfl⟩

theorem Lang.set {c : CharSet} {p : UInt8 → Prop} (hp : ∀ x : UInt8, c.has x.toNat = true ↔ p x) :
    Lang (.set c) (fun t caps => ∃ x, t = [x] ∧ p x ∧ caps = []) := by
  intro f s rest caps
  constructor
  · rintro ⟨x, e, hx, rfl⟩
    obtain ⟨y, u, rfl, rfl, rfl⟩ := (toU_cons_iff _ _ _).1 e
    exact ⟨[y], u, rfl, rfl, y, rfl, (hp y).1 hx, rfl⟩
  · rintro ⟨t, u, rfl, rfl, x, rfl, hx, rfl⟩
    exact ⟨x.toNat, rfl, (hp x).2 hx, rfl⟩

theorem Lang.rep {c : CharSet} {p : UInt8 → Prop} (hp : ∀ x : UInt8, c.has x.toNat = true ↔ p x) (lo : Nat)
    (hi : Option Nat) :
    Lang (.rep (.set c) lo hi)
      (fun t caps => lo ≤ t.length ∧ (∀ h, hi = some h → t.length ≤ h) ∧ (∀ x ∈ t, p x) ∧ caps = []) := by
  intro f s rest caps
  rw [Re.rep_set]
  constructor
  · rintro ⟨t, e, h1, h2, h3, rfl⟩
    obtain ⟨a, u, rfl, rfl, rfl⟩ := (toU_append_iff _ _ _).1 e
    refine ⟨a, u, rfl, rfl, by simpa [Py.toU] using h1, fun h hh => by simpa [Py.toU] using h2 h hh, ?_, rfl⟩
    intro x hx
    exact (hp x).1 (h3 _ (List.mem_map_of_mem hx))
  · rintro ⟨a, u, rfl, rfl, h1, h2, h3, rfl⟩
    refine ⟨Py.toU a, (toU_append_iff _ _ _).2 ⟨_, _, rfl, rfl, rfl⟩, by simpa [Py.toU] using h1,
      fun h hh => by simpa [Py.toU] using h2 h hh, ?_, rfl⟩
    intro x hx
    obtain ⟨y, hy, rfl⟩ := List.mem_map.1 hx
    exact (hp y).2 (h3 y hy)

theorem Lang.seq {a b : Re} {P Q : Bytes → Caps → Prop} (ha : Lang a P) (hb : Lang b Q) :
    Lang (.seq a b) (fun t caps => ∃ x y c1 c2, t = x ++ y ∧ P x c1 ∧ Q y c2 ∧ caps = c1 ++ c2) := by
  intro f s rest caps
  constructor
  · rintro ⟨m, c1, c2, h1, h2, rfl⟩
    obtain ⟨x, u, rfl, rfl, hx⟩ := (ha _ _ _ _).1 h1
    obtain ⟨y, v, rfl, rfl, hy⟩ := (hb _ _ _ _).1 h2
    exact ⟨x ++ y, v, by simp, rfl, x, y, c1, c2, rfl, hx, hy, rfl⟩
  · rintro ⟨t, u, rfl, rfl, x, y, c1, c2, rfl, hx, hy, rfl⟩
    exact ⟨Py.toU (y ++ u), c1, c2, (ha _ _ _ _).2 ⟨x, y ++ u, by simp, rfl, hx⟩,
      (hb _ _ _ _).2 ⟨y, u, rfl, rfl, hy⟩, rfl⟩

theorem Lang.alt {a b : Re} {P Q : Bytes → Caps → Prop} (ha : Lang a P) (hb : Lang b Q) :
    Lang (.alt a b) (fun t caps => P t caps ∨ Q t caps) := by
  intro f s rest caps
  simp only [Re.Eats]
  rw [ha, hb]
  constructor
  · rintro (⟨t, u, h1, h2, h3⟩ | ⟨t, u, h1, h2, h3⟩)
    · exact ⟨t, u, h1, h2, .inl h3⟩
    · exact ⟨t, u, h1, h2, .inr h3⟩
  · rintro ⟨t, u, h1, h2, h3 | h3⟩
    · exact .inl ⟨t, u, h1, h2, h3⟩
    · exact .inr ⟨t, u, h1, h2, h3⟩

theorem Lang.opt {a : Re} {P : Bytes → Caps → Prop} (ha : Lang a P) :
    Lang (.rep a 0 (some 1)) (fun t caps => (t = [] ∧ caps = []) ∨ P t caps) := by
  intro f s rest caps
  rw [Re.opt, ha]
  constructor
  · rintro (⟨rfl, rfl⟩ | ⟨t, u, h1, h2, h3⟩)
    · exact ⟨[], s, rfl, rfl, .inl ⟨rfl, rfl⟩⟩
    · exact ⟨t, u, h1, h2, .inr h3⟩
  · rintro ⟨t, u, rfl, rfl, ⟨rfl, rfl⟩ | h3⟩
    · exact .inl ⟨rfl, rfl⟩
    · exact .inr ⟨t, u, rfl, rfl, h3⟩

theorem Lang.group {a : Re} {P : Bytes → Caps → Prop} (ha : Lang a P) (name : Bytes) :
    Lang (.group name a) (fun t caps => ∃ c, P t c ∧ caps = (name, Py.toU t) :: c) := by
  intro f s rest caps
  constructor
  · rintro ⟨t, c, e, h, rfl⟩
    obtain ⟨x, u, rfl, rfl, hx⟩ := (ha _ _ _ _).1 h
    rw [show Py.toU (x ++ u) = Py.toU x ++ Py.toU u from List.map_append ..] at e
    cases List.append_cancel_right e
    exact ⟨x, u, rfl, rfl, c, hx, rfl⟩
  · rintro ⟨t, u, rfl, rfl, c, h, rfl⟩
    exact ⟨Py.toU t, c, List.map_append .., (ha _ _ _ _).2 ⟨t, u, rfl, rfl, h⟩, rfl⟩

/-- The same with another description of the texts. -/
theorem Lang.of {a : Re} {P Q : Bytes → Caps → Prop} (ha : Lang a P) (h : ∀ t caps, P t caps ↔ Q t caps) : Lang a Q := by
  intro f s rest caps
  rw [ha]
  simp only [h]

end Verif
