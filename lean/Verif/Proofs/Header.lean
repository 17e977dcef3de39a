import Verif.Model.Header
import Verif.Spec.Header
import Verif.Proofs.Find
/-!
# Lemmas about header parsing
-/

namespace Verif
open Spec

theorem countChar_eq {α : Type} [DecidableEq α] (c : α) (s : List α) :
    Py.countChar c s = s.count c := by
  induction s with
  | nil => rfl
  | cons x t ih =>
    unfold Py.countChar at *
    by_cases h : x = c
    · subst h; simp [ih]
    · simp [h, ih]

theorem quotes_append (a b : Bytes) : quotes (a ++ b) = quotes a + quotes b := by
  simp [quotes]

theorem single_prefix_drop {c : UInt8} {s : Bytes} {i : Nat} :
    [c] <+: s.drop i ↔ s[i]? = some c := by
  rw [← List.head?_drop]
  cases s.drop i with
  | nil => simp
  | cons x t => simp [eq_comm]

/-- Finding one character. -/
theorem findFrom_single {c : UInt8} {s : Bytes} {n : Nat} :
    (∀ i, Py.findFrom [c] s n = some i → n ≤ i ∧ s[i]? = some c ∧
      ∀ j, n ≤ j → j < i → s[j]? ≠ some c) ∧
    (Py.findFrom [c] s n = none → ∀ j, n ≤ j → s[j]? ≠ some c) := by
  unfold Py.findFrom
  constructor
  · intro i h
    split at h
    · obtain ⟨k, hk, rfl⟩ := Option.map_eq_some_iff.1 h
      obtain ⟨_, b, c'⟩ := Py.find_some.1 hk
      rw [List.drop_drop, single_prefix_drop] at b
      refine ⟨by omega, by rwa [Nat.add_comm], fun j h1 h2 => ?_⟩
      have := c' (j - n) (by omega)
      rw [List.drop_drop, single_prefix_drop] at this
      rwa [show n + (j - n) = j by omega] at this
    · simp at h
  · intro h j hj hs
    have hjl : j < s.length := by
      by_contra hc
      simp [List.getElem?_eq_none (show s.length ≤ j by omega)] at hs
    rw [if_pos (by omega)] at h
    have h' : Py.find [c] (s.drop n) = none := by simpa using h
    refine Py.find_none.1 h' (j - n) (by simp; omega) ?_
    rw [List.drop_drop, single_prefix_drop]
    rwa [show n + (j - n) = j by omega]

theorem find_eq_findFrom (p s : Bytes) : Py.find p s = Py.findFrom p s 0 := by
  simp [Py.findFrom]

/-- What the inner loop of `_parse_header_params` computes. -/
structure IsEnd (s : Bytes) (e : Nat) : Prop where
  le : e ≤ s.length
  semi : e < s.length → s[e]? = some 59 ∧ quotes (s.take e) % 2 = 0
  before : ∀ j < e, s[j]? = some 59 → quotes (s.take j) % 2 = 1

theorem paramEndLoop_spec (s : Bytes) : ∀ fuel (e : Option Nat),
    (match e with
      | none => ∀ j : Nat, s[j]? = some 59 → quotes (s.take j) % 2 = 1
      | some i => s[i]? = some 59 ∧ s.length < i + fuel ∧
          ∀ j < i, s[j]? = some 59 → quotes (s.take j) % 2 = 1) →
    IsEnd s ((paramEndLoop s fuel e).getD s.length) := by
  intro fuel
  induction fuel with
  | zero =>
    intro e h
    cases e with
    | none => exact ⟨by simp [paramEndLoop], by simp [paramEndLoop], fun j _ hj => h j hj⟩
    | some i =>
      obtain ⟨a, b, _⟩ := h
      simp [List.getElem?_eq_none (show s.length ≤ i by omega)] at a
  | succ fuel ih =>
    intro e h
    cases e with
    | none => exact ⟨by simp [paramEndLoop], by simp [paramEndLoop], fun j _ hj => h j hj⟩
    | some i =>
      obtain ⟨a, b, c⟩ := h
      have hil : i < s.length := by
        by_contra hc
        simp [List.getElem?_eq_none (show s.length ≤ i by omega)] at a
      unfold paramEndLoop
      simp only []
      split
      · rename_i hc
        have hodd : quotes (s.take i) % 2 = 1 := by
          have := hc.2; rw [countChar_eq] at this; unfold quotes; omega
        apply ih
        have f := findFrom_single (c := 59) (s := s) (n := i + 1)
        cases e : Py.findFrom b!";" s (i + 1) with
        | none =>
          intro j hj
          rcases Nat.lt_trichotomy j i with h1 | rfl | h1
          · exact c j h1 hj
          · exact hodd
          · exact absurd hj (f.2 e j h1)
        | some k =>
          obtain ⟨f1, f2, f3⟩ := f.1 k e
          refine ⟨f2, by omega, fun j hjk hj => ?_⟩
          rcases Nat.lt_trichotomy j i with h1 | rfl | h1
          · exact c j h1 hj
          · exact hodd
          · exact absurd hj (f3 j h1 hjk)
      · rename_i hc
        refine ⟨by simp; omega, fun _ => ⟨by simpa using a, ?_⟩, by simpa using c⟩
        simp only [Option.getD_some]
        rw [countChar_eq] at hc
        unfold quotes
        by_cases h0 : i = 0
        · subst h0; simp
        · have : ¬ (List.count 34 (s.take i) % 2 ≠ 0) := fun h => hc ⟨by omega, h⟩
          omega

theorem paramEnd_spec (s : Bytes) : IsEnd s (paramEnd s) := by
  unfold paramEnd
  apply paramEndLoop_spec
  have f := findFrom_single (c := 59) (s := s) (n := 0)
  rw [← find_eq_findFrom] at f
  cases e : Py.find b!";" s with
  | none => intro j hj; exact absurd hj (f.2 e j (by omega))
  | some i =>
    obtain ⟨f1, f2, f3⟩ := f.1 i e
    exact ⟨f2, by omega, fun j h1 h2 => absurd h2 (f3 j (by omega) h1)⟩

theorem IsEnd.unique {s : Bytes} {e e' : Nat} (h : IsEnd s e) (h' : IsEnd s e') : e = e' := by
  rcases Nat.lt_trichotomy e e' with g | g | g
  · have := h.semi (by have := h'.le; omega)
    have := h'.before e g this.1; omega
  · exact g
  · have := h'.semi (by have := h.le; omega)
    have := h.before e' g this.1; omega

/-- The pieces of a header. -/
theorem IsEnd.of_decomp {r t : Bytes} (h1 : ∀ a b, r = a ++ 59 :: b → quotes a % 2 = 1)
    (h2 : t = [] ∨ (quotes r % 2 = 0 ∧ t.head? = some 59)) : IsEnd (r ++ t) r.length := by
  refine ⟨by simp, fun hl => ?_, fun j hj hs => ?_⟩
  · rcases h2 with rfl | ⟨h2, h3⟩
    · simp at hl
    · constructor
      · rw [List.getElem?_append_right (by omega)]; simpa [List.head?_eq_getElem?] using h3
      · simpa using h2
  · rw [List.getElem?_append_left hj] at hs
    have e : r = r.take j ++ 59 :: r.drop (j + 1) := by
      obtain ⟨h, hs⟩ := List.getElem?_eq_some_iff.1 hs
      rw [← hs]; simp
    rw [List.take_append_of_le_length (by omega)]
    exact h1 _ _ e

theorem joinSemi_cons (r : Bytes) (rs : List Bytes) :
    joinSemi (r :: rs) = r ++ (if rs = [] then [] else 59 :: joinSemi rs) := by
  cases rs <;> simp [joinSemi]

theorem Spec.SplitSemis.tail {h : Bytes} {r r2 : Bytes} {rs : List Bytes}
    (H : SplitSemis h (r :: r2 :: rs)) : SplitSemis (joinSemi (r2 :: rs)) (r2 :: rs) :=
  ⟨by simp, rfl, fun x hx => H.inner x (by simp at hx ⊢; tauto),
    fun x hx => H.outer x (by simp [List.dropLast_cons_of_ne_nil] at hx ⊢; tauto)⟩

/-- The computation agrees with every correct cutting. -/
theorem parseHeaderParams_of_split : ∀ (raws : List Bytes) (h : Bytes) (fuel : Nat),
    SplitSemis h raws → h.length + 1 < fuel → parseHeaderParams fuel (59 :: h) = raws.map Py.strip := by
  intro raws
  induction raws with
  | nil => intro h fuel H; exact absurd rfl H.ne
  | cons r rs ih =>
    intro h fuel H hf
    obtain ⟨fuel, rfl⟩ : ∃ f, fuel = f + 1 := ⟨fuel - 1, by omega⟩
    have hj := H.join
    rw [joinSemi_cons] at hj
    have he : paramEnd h = r.length := by
      refine (paramEnd_spec h).unique ?_
      rw [hj]
      refine IsEnd.of_decomp (H.inner r (by simp)) ?_
      cases rs with
      | nil => simp
      | cons r2 rs => right; exact ⟨H.outer r (by simp), by simp⟩
    unfold parseHeaderParams
    simp only [he, List.map_cons]
    have ht : h.take r.length = r := by rw [hj]; simp
    have hd : h.drop r.length = if rs = [] then [] else 59 :: joinSemi rs := by rw [hj]; simp
    rw [ht, hd]
    cases rs with
    | nil =>
      obtain ⟨fuel, rfl⟩ : ∃ f, fuel = f + 1 := ⟨fuel - 1, by omega⟩
      simp [parseHeaderParams]
    | cons r2 rs =>
      simp only [List.cons_ne_nil, if_false]
      rw [ih (joinSemi (r2 :: rs)) fuel H.tail ?_]
      have : h.length = r.length + 1 + (joinSemi (r2 :: rs)).length := by
        rw [hj]; simp; omega
      omega

theorem split_exists (h : Bytes) : ∃ raws, SplitSemis h raws := by
  induction hn : h.length using Nat.strong_induction_on generalizing h with
  | _ n ih =>
    subst hn
    have E := paramEnd_spec h
    generalize paramEnd h = e at E
    have hinner : ∀ a b, h.take e = a ++ 59 :: b → quotes a % 2 = 1 := by
      intro a b hab
      have hl : a.length < e := by
        have := congrArg List.length hab
        simp at this; omega
      have : h = a ++ 59 :: (b ++ h.drop e) := by
        conv_lhs => rw [← List.take_append_drop e h, hab]
        simp
      have h2 := E.before a.length hl (by rw [this]; simp)
      rw [this] at h2; simpa using h2
    by_cases he : e < h.length
    · obtain ⟨s1, s2⟩ := E.semi he
      have hdec : h = h.take e ++ 59 :: h.drop (e + 1) := by
        obtain ⟨_, hs⟩ := List.getElem?_eq_some_iff.1 s1
        rw [← hs]; simp
      obtain ⟨raws, H⟩ := ih (h.drop (e + 1)).length (by simp; omega) _ rfl
      refine ⟨h.take e :: raws, by simp, ?_, ?_, ?_⟩
      · rw [joinSemi_cons, if_neg H.ne, ← H.join]; exact hdec
      · intro r hr a b
        rcases List.mem_cons.1 hr with rfl | hr
        · exact hinner a b
        · exact H.inner r hr a b
      · intro r hr
        rw [List.dropLast_cons_of_ne_nil H.ne] at hr
        rcases List.mem_cons.1 hr with rfl | hr
        · exact s2
        · exact H.outer r hr
    · have : h.take e = h := List.take_of_length_le (by omega)
      rw [this] at hinner
      exact ⟨[h], by simp, by simp [joinSemi], by simpa using hinner, by simp⟩

/-- A header can be cut in only one way. -/
theorem split_unique : ∀ (raws raws' : List Bytes) (h : Bytes),
    SplitSemis h raws → SplitSemis h raws' → raws = raws' := by
  intro raws
  induction raws with
  | nil => intro raws' h H; exact absurd rfl H.ne
  | cons r rs ih =>
    intro raws' h H H'
    cases raws' with
    | nil => exact absurd rfl H'.ne
    | cons r' rs' =>
      have key : ∀ {r rs}, SplitSemis h (r :: rs) → r.length = paramEnd h := by
        intro r rs H
        refine IsEnd.unique ?_ (paramEnd_spec h)
        have hj := H.join
        rw [joinSemi_cons] at hj
        rw [hj]
        refine IsEnd.of_decomp (H.inner r (by simp)) ?_
        cases rs with
        | nil => simp
        | cons r2 rs => right; exact ⟨H.outer r (by simp), by simp⟩
      have hlen := (key H).trans (key H').symm
      have e1 := H.join; have e2 := H'.join
      rw [joinSemi_cons] at e1 e2
      obtain ⟨rfl, et⟩ := List.append_inj (e1.symm.trans e2) hlen
      congr 1
      cases rs with
      | nil =>
        cases rs' with
        | nil => rfl
        | cons a b => simp at et
      | cons a b =>
        cases rs' with
        | nil => simp at et
        | cons a' b' =>
          simp at et
          have h1 := H.tail
          have h2 := H'.tail
          rw [← et] at h2
          exact ih _ _ h1 h2

theorem parseHeaderParams_fuel (h : Bytes) (fuel : Nat) (hf : h.length + 1 < fuel) :
    ∃ raws, SplitSemis h raws ∧ parseHeaderParams fuel (59 :: h) = raws.map Py.strip := by
  obtain ⟨raws, H⟩ := split_exists h
  exact ⟨raws, H, parseHeaderParams_of_split raws h fuel H hf⟩

end Verif
