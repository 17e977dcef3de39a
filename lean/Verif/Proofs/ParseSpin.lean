import Verif.Proofs.ParseLimits
/-! When the base64 loop can spin. -/

namespace Verif
open Spec

theorem stripBy_infix {α : Type} (p : α → Bool) (l : List α) : Py.stripBy p l <:+: l := by
  unfold Py.stripBy
  have h1 := List.dropWhile_suffix (l := (l.dropWhile p).reverse) p
  rw [← List.reverse_prefix, List.reverse_reverse] at h1
  exact h1.isInfix.trans (List.dropWhile_suffix p).isInfix

theorem splitPair_infix (a b : UInt8) : ∀ (s l : Bytes), l ∈ Py.splitPair a b s → l <:+: s := by
  suffices h : ∀ (n : Nat) (s : Bytes), s.length ≤ n → (∃ p ps, Py.splitPair a b s = p :: ps ∧ p <+: s) ∧
      ∀ l ∈ Py.splitPair a b s, l <:+: s from
    fun s l hl => (h s.length s (le_refl _)).2 l hl
  intro n
  induction n with
  | zero =>
    intro s hs
    have : s = [] := List.length_eq_zero_iff.1 (by omega)
    subst this
    refine ⟨⟨[], [], rfl, List.prefix_refl _⟩, ?_⟩
    intro l hl; simp [Py.splitPair] at hl; subst hl; exact List.infix_rfl
  | succ n ih =>
    intro s hs
    match s with
    | [] =>
      refine ⟨⟨[], [], rfl, List.prefix_refl _⟩, ?_⟩
      intro l hl; simp [Py.splitPair] at hl; subst hl; exact List.infix_rfl
    | [x] =>
      refine ⟨⟨[x], [], rfl, List.prefix_refl _⟩, ?_⟩
      intro l hl; simp [Py.splitPair] at hl; subst hl; exact List.infix_rfl
    | x :: y :: t =>
      unfold Py.splitPair
      split
      · refine ⟨⟨[], _, rfl, List.nil_prefix⟩, ?_⟩
        intro l hl
        simp only [List.mem_cons] at hl
        rcases hl with rfl | hl
        · exact ⟨[], x :: y :: t, by simp⟩
        · have := (ih t (by simp at hs; omega)).2 l hl
          exact this.trans ⟨[x, y], [], by simp⟩
      · obtain ⟨⟨p, ps, h1, h2⟩, h3⟩ := ih (y :: t) (by simp at hs ⊢; omega)
        rw [h1] at h3 ⊢
        have h2' : x :: p <+: x :: y :: t := by
          obtain ⟨q, hq⟩ := h2
          exact ⟨q, by simp [hq]⟩
        refine ⟨⟨x :: p, ps, rfl, h2'⟩, ?_⟩
        intro l hl
        simp only [List.mem_cons] at hl
        rcases hl with rfl | hl
        · exact h2'.isInfix
        · exact (h3 l (by simp [hl])).trans ⟨[x], [], by simp⟩

theorem lower_infix {a b : Bytes} (h : a <:+: b) : Py.lower a <:+: Py.lower b := by
  obtain ⟨x, y, rfl⟩ := h
  exact ⟨Py.lower x, Py.lower y, by simp [Py.lower]⟩

theorem parsePartHeader_infix {C : Codecs} {line name value : Bytes} {params : Dict Bytes PyStr}
    (h : parsePartHeader C line = .ok (name, value, params)) : value <:+: Py.lower line := by
  unfold parsePartHeader at h
  split at h
  · simp at h
  · rename_i main d hp
    split at h
    · simp at h
    · rename_i n v hs
      simp only [Except.ok.injEq, Prod.mk.injEq] at h
      obtain ⟨rfl, rfl, rfl⟩ := h
      have h1 : v <:+: main := by
        obtain ⟨h, _⟩ := splitFirst_some hs
        rw [h]; exact ⟨n ++ [58], [], by simp⟩
      refine h1.trans ?_
      unfold parseHeader at hp
      split at hp
      · simp at hp
      · rename_i k plist hk
        simp only at hp
        split at hp
        · simp at hp
        · split at hp
          · simp at hp
          · simp only [Except.ok.injEq, Prod.mk.injEq] at hp
            rw [← hp.1]
            apply lower_infix
            unfold parseHeaderParams at hk
            simp only [List.cons.injEq] at hk
            rw [← hk.1]
            exact (stripBy_infix _ _).trans (List.take_prefix _ _).isInfix

theorem partHeaders_infix {C : Codecs} {B : Bytes} : ∀ (ls : List Bytes) (t : ItemType) (md : MetaData)
    (t' : ItemType) (md' : MetaData), partHeaders C ls t md = .ok (t', md') →
    (∀ l ∈ ls, l <:+: B) → (∀ n v, md.get? n = some v → v.1 <:+: Py.lower B) →
    ∀ n v, md'.get? n = some v → v.1 <:+: Py.lower B := by
  intro ls
  induction ls with
  | nil =>
    intro t md t' md' h _ h0
    simp only [partHeaders, Except.ok.injEq, Prod.mk.injEq] at h
    obtain ⟨rfl, rfl⟩ := h
    exact h0
  | cons l ls ih =>
    intro t md t' md' h hl h0
    unfold partHeaders at h
    split at h
    · split at h
      · exact ih _ _ _ _ h (fun l h => hl l (by simp [h])) h0
      · simp at h
    · rename_i name value params hp
      simp only at h
      refine ih _ _ _ _ h (fun l h => hl l (by simp [h])) ?_
      intro n v hv
      rw [Dict.get?_set] at hv
      split at hv
      · simp only [Option.some.injEq] at hv
        subst hv
        exact (parsePartHeader_infix hp).trans (lower_infix (hl l (by simp)))
      · exact h0 n v hv

theorem PartHead.te_infix {C : Codecs} {P : Bytes} {t : ItemType} {md : MetaData} {content te : Bytes}
    (h : PartHead C P t md content) (hte : transferEnc md = some te) : te <:+: Py.lower P := by
  have key : ∀ i t, partHeaders C (Py.splitPair 13 10 (P.take i)) .raw [] = .ok (t, md) →
      te <:+: Py.lower P := by
    intro i t hp
    unfold transferEnc at hte
    cases hv : md.get? b!"content-transfer-encoding" with
    | none => rw [hv] at hte; simp at hte
    | some v =>
      rw [hv] at hte
      simp only [Option.map_some, Option.some.injEq] at hte
      subst hte
      exact (stripBy_infix _ _).trans (partHeaders_infix _ _ _ _ _ hp
        (fun l hl => (splitPair_infix _ _ _ _ hl).trans (List.take_prefix _ _).isInfix)
        (by simp [Dict.get?]) _ _ hv)
  cases h with
  | noHeader => simp [transferEnc, Dict.get?] at hte
  | header _ h => exact key _ _ h
  | rawHeader _ h => exact key _ _ h

theorem cut_prefix (sep D : Bytes) : cut sep D <+: D := by
  rcases cut_after_Cut sep D with ⟨pre, h1, _, h3⟩ | ⟨_, h, _⟩
  · rw [h3]
    have : stripEol pre <+: pre := by
      unfold stripEol
      have hr : ∀ a b : Bytes, pre.reverse = a ++ b → b.reverse <+: pre := by
        intro a b h
        have : pre = b.reverse ++ a.reverse := by rw [← List.reverse_append, ← h, List.reverse_reverse]
        exact ⟨a.reverse, this.symm⟩
      split
      · rename_i h; exact hr [10, 13] _ h
      · rename_i h; exact hr [10] _ h
      · rename_i h; exact hr [13] _ h
      · exact List.prefix_refl _
    exact this.trans ⟨sep ++ after sep D, by rw [← List.append_assoc, ← h1]⟩
  · rw [h]

theorem SpinPart.base64 {C : Codecs} {fuel64 : Nat} {sep D D1 : Bytes} (h1 : D1 <:+ D)
    (h : SpinPart C fuel64 (cut sep D1)) : b!"base64" <:+: Py.lower D := by
  obtain ⟨md, content, hP, hte, _⟩ := h
  exact (hP.te_infix hte).trans (lower_infix ((cut_prefix sep D1).isInfix.trans h1.isInfix))

end Verif
