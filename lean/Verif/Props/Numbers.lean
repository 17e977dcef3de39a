import Verif.Props.Util
import Verif.Props.FileObj
import Verif.Props.Views
import Verif.Model.Modules
/-!
# What `base36_to_int` accepts (C58), `lists()` (C91), `size()` and `ContentFile` (C90)
-/

namespace Verif.Spec

/-- `s` is a numeral with this value in base 36; letters may be of either case. -/
inductive AnyNum36 : Bytes → Nat → Prop where
  | nil : AnyNum36 [] 0
  | digit {s n c v} : AnyNum36 s n →
      (b!"0123456789abcdefghijklmnopqrstuvwxyz"[v]? = some c ∨ b!"0123456789ABCDEFGHIJKLMNOPQRSTUVWXYZ"[v]? = some c) →
      AnyNum36 (s ++ [c]) (n * 36 + v)

/-- A text for the number `i`: white space, an optional sign, after which there may be white space, at least one
digit, white space. -/
def Text36 (s : Bytes) (i : Int) : Prop :=
  ∃ (l sign mid ds r : Bytes) (n : Nat), s = l ++ sign ++ mid ++ ds ++ r ∧
    (∀ c ∈ l ++ mid ++ r, c = 32 ∨ (9 ≤ c ∧ c ≤ 13)) ∧ ds ≠ [] ∧ AnyNum36 ds n ∧
    ((sign = [] ∧ i = n) ∨ (sign = b!"+" ∧ i = n) ∨ (sign = b!"-" ∧ i = -n))

end Verif.Spec

namespace Verif
open Spec

/-! ### C58 -/

theorem digit36_iff (c : UInt8) (v : Nat) : digit36 c = some v ↔
    (b!"0123456789abcdefghijklmnopqrstuvwxyz"[v]? = some c ∨ b!"0123456789ABCDEFGHIJKLMNOPQRSTUVWXYZ"[v]? = some c) := by
  by_cases hv : v < 36
  · have key : ∀ v : Fin 36, ∀ c : UInt8, (decide (digit36 c = some v.val) ==
        (decide (b!"0123456789abcdefghijklmnopqrstuvwxyz"[v.val]? = some c) ||
          decide (b!"0123456789ABCDEFGHIJKLMNOPQRSTUVWXYZ"[v.val]? = some c))) = true := by
      intro v
      apply forall_u8
      revert v
      decide +kernel
    have := key ⟨v, hv⟩ c
    rw [beq_iff_eq, ← Bool.decide_or, decide_eq_decide] at this
    exact this
  · have h1 : digit36 c ≠ some v := by
      have := forall_u8 (fun c => (digit36 c).all (fun v => decide (v < 36))) (by decide +kernel) c
      intro h
      rw [h] at this
      simp at this
      omega
    have hn : ∀ (l : Bytes), l.length = 36 → l[v]? = none := fun l hl => List.getElem?_eq_none (by omega)
    rw [hn _ (by decide), hn _ (by decide)]
    simp [h1]

theorem digits36_iff (s : Bytes) (n : Nat) : digits36 s 0 = some n ↔ AnyNum36 s n := by
  constructor
  · induction s using List.reverseRecOn generalizing n with
    | nil => intro h; cases h; exact .nil
    | append_singleton s c ih =>
      intro h
      rw [digits36_append] at h
      obtain ⟨k, h1, h2⟩ := Option.bind_eq_some_iff.1 h
      simp only [digits36] at h2
      split at h2
      · cases h2
      · rename_i v hv
        cases h2
        exact .digit (ih k h1) ((digit36_iff c v).1 hv)
  · intro h
    induction h with
    | nil => rfl
    | digit _ hc ih =>
      rw [digits36_append, ih, Option.bind_some]
      simp only [digits36, (digit36_iff _ _).2 hc]

theorem anyNum36_chars {s : Bytes} {n : Nat} (h : AnyNum36 s n) :
    ∀ c ∈ s, Py.isSpace c = false ∧ c ≠ 45 ∧ c ≠ 43 := by
  induction h with
  | nil => simp
  | digit _ hc ih =>
    rename_i v _
    intro x hx
    rcases List.mem_append.1 hx with hx | hx
    · exact ih x hx
    · rw [List.mem_singleton] at hx
      subst hx
      have := forall_u8 (fun c => !(digit36 c).isSome || (!Py.isSpace c && c != 45 && c != 43)) (by decide +kernel) x
      rw [(digit36_iff x v).2 hc] at this
      simpa [and_assoc] using this

theorem isSpace_range (c : UInt8) : Py.isSpace c = true ↔ c = 32 ∨ (9 ≤ c ∧ c ≤ 13) := by
  unfold Py.isSpace
  simp only [Bool.or_eq_true, Bool.and_eq_true, decide_eq_true_eq]
  exact Or.comm

theorem dropWhile_pad {p : UInt8 → Bool} {a b : Bytes} (ha : ∀ c ∈ a, p c = true) (hb : ∀ c, b.head? = some c → p c = false) :
    (a ++ b).dropWhile p = b := by
  rw [List.dropWhile_append_of_pos ha]
  cases b with
  | nil => rfl
  | cons x t => rw [List.dropWhile_cons_of_neg (by simp [hb x rfl])]

theorem int36_iff (s : Bytes) (i : Int) : int36 s = some i ↔ Text36 s i := by
  constructor
  · intro h
    obtain ⟨l, r, hs, hlr, hhead⟩ := strip_trimmed s
    unfold int36 at h
    generalize Py.strip s = t at h hs hhead
    simp only at h
    split at h
    · cases h
    · rename_i hne
      obtain ⟨n, hn, hi⟩ := Option.map_eq_some_iff.1 h
      have hd := (digits36_iff _ _).1 hn
      have hsp : ∀ c ∈ l ++ r, c = 32 ∨ (9 ≤ c ∧ c ≤ 13) := fun c hc => (isSpace_range c).1 (hlr c hc)
      have hcase : (∃ d, t = 45 :: d) ∨ (∃ d, t = 43 :: d) ∨ sign36 t = (false, t) := by
        unfold sign36
        split
        · exact .inl ⟨_, rfl⟩
        · exact .inr (.inl ⟨_, rfl⟩)
        · exact .inr (.inr rfl)
      have htw : ∀ d : Bytes, d = d.takeWhile Py.isSpace ++ d.dropWhile Py.isSpace :=
        fun d => (List.takeWhile_append_dropWhile (p := Py.isSpace) (l := d)).symm
      have hmid : ∀ d : Bytes, ∀ c ∈ l ++ d.takeWhile Py.isSpace ++ r, c = 32 ∨ (9 ≤ c ∧ c ≤ 13) := by
        intro d c hc
        simp only [List.mem_append] at hc
        rcases hc with (hc | hc) | hc
        · exact hsp c (by simp [hc])
        · exact (isSpace_range c).1 (takeWhile_mem hc)
        · exact hsp c (by simp [hc])
      rcases hcase with ⟨d, rfl⟩ | ⟨d, rfl⟩ | hc
      · refine ⟨l, b!"-", d.takeWhile Py.isSpace, d.dropWhile Py.isSpace, r, n, ?_, hmid d, hne, hd, .inr (.inr ⟨rfl, ?_⟩)⟩
        · rw [hs]
          conv => lhs; rw [htw d]
          simp
        · rw [← hi]; rfl
      · refine ⟨l, b!"+", d.takeWhile Py.isSpace, d.dropWhile Py.isSpace, r, n, ?_, hmid d, hne, hd, .inr (.inl ⟨rfl, ?_⟩)⟩
        · rw [hs]
          conv => lhs; rw [htw d]
          simp
        · rw [← hi]; rfl
      · rw [hc] at hne hd hi
        exact ⟨l, [], [], t, r, n, by simpa using hs, by simpa using hsp, hne, hd, .inl ⟨rfl, by simpa using hi.symm⟩⟩
  · rintro ⟨l, sign, mid, ds, r, n, rfl, hsp, hne, hd, hsign⟩
    have hch := anyNum36_chars hd
    obtain ⟨x, t, hxt⟩ := List.exists_cons_of_ne_nil hne
    have hx := hch x (by rw [hxt]; simp)
    have hsp' : ∀ c ∈ l ++ mid ++ r, Py.isSpace c = true := fun c hc => (isSpace_range c).2 (hsp c hc)
    have hlast : ∀ (a : Bytes) c, (a ++ ds).getLast? = some c → Py.isSpace c = false := by
      intro a c hc
      rw [List.getLast?_append_of_ne_nil _ hne] at hc
      exact (hch c (List.mem_of_getLast? hc)).1
    have hdrop : (mid ++ ds).dropWhile Py.isSpace = ds :=
      dropWhile_pad (fun c hc => hsp' c (by simp [hc])) (fun c hc => (hch c (List.mem_of_mem_head? hc)).1)
    have hs0 : ∀ u : Bytes, u = x :: t → sign36 u = (false, u) := by
      rintro u rfl
      unfold sign36
      split
      · rename_i d h; cases h; exact absurd rfl hx.2.1
      · rename_i d h; cases h; exact absurd rfl hx.2.2
      · rfl
    have hdi := (digits36_iff _ _).2 hd
    rcases hsign with ⟨rfl, rfl⟩ | ⟨rfl, rfl⟩ | ⟨rfl, rfl⟩
    · have e : Py.strip (l ++ [] ++ mid ++ ds ++ r) = ds := by
        rw [List.append_nil]
        refine strip_pad (fun c hc => hsp' c (by simpa using hc)) ?_
        rintro c (hc | hc)
        · exact (hch c (List.mem_of_mem_head? hc)).1
        · exact hlast [] c hc
      unfold int36
      rw [e, hs0 ds hxt]
      simp [hne, hdi]
    · have e : Py.strip (l ++ b!"+" ++ mid ++ ds ++ r) = 43 :: (mid ++ ds) := by
        rw [show l ++ b!"+" ++ mid ++ ds ++ r = l ++ (43 :: (mid ++ ds)) ++ r by simp]
        refine strip_pad (fun c hc => hsp' c (by
          rcases List.mem_append.1 hc with hc | hc <;> simp [hc])) ?_
        rintro c (hc | hc)
        · cases hc; rfl
        · exact hlast (43 :: mid) c hc
      unfold int36
      rw [e]
      simp [sign36, hdrop, hne, hdi]
    · have e : Py.strip (l ++ b!"-" ++ mid ++ ds ++ r) = 45 :: (mid ++ ds) := by
        rw [show l ++ b!"-" ++ mid ++ ds ++ r = l ++ (45 :: (mid ++ ds)) ++ r by simp]
        refine strip_pad (fun c hc => hsp' c (by
          rcases List.mem_append.1 hc with hc | hc <;> simp [hc])) ?_
        rintro c (hc | hc)
        · cases hc; rfl
        · exact hlast (45 :: mid) c hc
      unfold int36
      rw [e]
      simp [sign36, hdrop, hne, hdi]

/-- **C58**, what `base36_to_int` makes of any string: a text of at most 13 characters for a number gives that
number; everything else is a `ValueError`. -/
theorem C58_reads (s : Bytes) :
    (∀ i, base36ToInt s = .ok i ↔ s.length ≤ 13 ∧ Text36 s i) ∧
    ((¬ ∃ i, s.length ≤ 13 ∧ Text36 s i) → base36ToInt s = .error .valueError) := by
  have h1 : ∀ i, base36ToInt s = .ok i ↔ s.length ≤ 13 ∧ Text36 s i := by
    intro i
    rw [← int36_iff]
    unfold base36ToInt
    by_cases hl : 13 < s.length
    · rw [if_pos hl]
      constructor
      · intro h; cases h
      · rintro ⟨h, _⟩; omega
    · rw [if_neg hl]
      cases int36 s with
      | none => simp
      | some j => simp; omega
  refine ⟨h1, fun h => ?_⟩
  cases he : base36ToInt s with
  | ok i => exact absurd ⟨i, (h1 i).1 he⟩ h
  | error e =>
    unfold base36ToInt at he
    split at he
    · exact he.symm
    · split at he
      · exact he.symm
      · cases he

example : (base36ToInt b!" -\tZa ").toOption = some (-1270) ∧ (base36ToInt b!"-+1").toOption = none := by decide +kernel

/-! ### C91 -/

/-- **C91**, `lists()`: every key once, with the list that `getlist` reads, even if it is empty. -/
theorem C91_lists {κ α : Type} [DecidableEq κ] (m : Mem κ α) (wf : m.WF) (i : Nat) :
    ((Mem.listsOf i m).map Prod.fst).Nodup ∧ (∀ k, k ∈ (Mem.listsOf i m).map Prod.fst ↔ (m.abs i k).isSome) ∧
    ∀ p ∈ Mem.listsOf i m, ∃ r, p.2 = .list r ∧ m.abs i p.1 = some (m.elems r) := by
  have e : (Mem.listsOf i m).map Prod.fst = (m.dict i).keys := by simp [Mem.listsOf, Dict.keys, Function.comp_def]
  rw [e]
  refine ⟨wf.nodup i, fun k => mem_keys_iff m i k, ?_⟩
  intro p hp
  obtain ⟨⟨k, r⟩, hq, rfl⟩ := List.mem_map.1 hp
  refine ⟨r, rfl, ?_⟩
  unfold Mem.abs
  rw [Dict.get?_of_mem (wf.nodup i) hq]
  rfl

example : Mem.listsOf 0 (Mem.put (Mem.put sampleMem 0 b!"a" [.atom b!"x", .atom b!"y"]) 0 b!"b" []) =
    [(b!"a", .list 1), (b!"b", .list 2)] := by decide +kernel

/-! ### C90 -/

/-- **C90**, `size()` of a plain `File` over an object without size and name: the number of its bytes, wherever the
position is, and the position stays. -/
theorem C90_size (f : FileO) (h : f.closed = false) (hs : f.file.seek = .works) :
    f.sizeCall = .ok (f.file.content.length, f) := by
  unfold FileO.sizeCall
  rw [if_neg (by simp [h]), hs]

/-- **C90**, `size()` in the other cases: `ValueError` for a closed file, `AttributeError` for an object without `seek`,
and else what its `seek` raises. -/
theorem C90_size_raises (f : FileO) (n : Nat × FileO) :
    (f.sizeCall = .ok n ↔ f.closed = false ∧ f.file.seek = .works ∧ n = (f.file.content.length, f)) ∧
    (f.sizeCall = .error .attributeError ↔ f.closed = false ∧ f.file.seek = .missing) ∧
    (f.sizeCall = .error .valueError ↔ f.closed = true ∨ f.file.seek = .unsupported) ∧
    (f.sizeCall = .error .ioError ↔ f.closed = false ∧ f.file.seek = .fails) := by
  unfold FileO.sizeCall
  cases f.closed <;> cases f.file.seek <;> simp [eq_comm]

/-- **C90 is false of the code** for `ContentFile`: there are no such objects. -/
theorem C90_content (c : PyStr) (n : Option Bytes) : contentFile c n = .error .typeError := rfl

example : (FileO.sizeCall { cls := .plain, file := { content := b!"abc", pos := 2 } }).toOption =
    some (3, { cls := .plain, file := { content := b!"abc", pos := 2 } }) := by decide +kernel

end Verif
