import Verif.Model.Stream
import Mathlib.Tactic.Linarith
import Mathlib.Data.List.Basic
/-! Contracts for producers and the behaviour of `LazyStream` and `ChunkIter`. -/

namespace Verif

/-- A contract for a producer type: as long as `Inv` holds, `next` never fails,
yields the bytes of `content` in order, and is exhausted exactly when it says so.
`End` holds after `StopIteration` was raised. -/
structure Lawful (σ : Type) [Producer σ] where
  Inv : σ → Prop
  End : σ → Prop
  content : σ → Bytes
  next_spec : ∀ p, Inv p →
    (∃ p', Producer.next p = (.ok none, p') ∧ Inv p' ∧ End p' ∧ content p = [] ∧
      content p' = [] ∧ Producer.size p' ≤ Producer.size p) ∨
    (∃ c p', Producer.next p = (.ok (some c), p') ∧ Inv p' ∧ content p = c ++ content p' ∧
      Producer.size p' < Producer.size p ∧
      Producer.size p' + c.length ≤ Producer.size p)

/-- The request file object satisfies the contract. -/
def Source.lawful : Lawful Source where
  Inv _ := True
  End s := s.chunks = []
  content s := s.chunks.flatten
  next_spec := by
    rintro ⟨_ | ⟨c, cs⟩⟩ _
    · left; exact ⟨⟨[]⟩, by simp [Producer.next]⟩
    · right; refine ⟨c, ⟨cs⟩, by simp [Producer.next], trivial, by simp, ?_, ?_⟩ <;>
        simp [Producer.size] <;> omega

namespace Lawful
variable {σ : Type} [Producer σ] (L : Lawful σ)

/-- Remaining content of a stream. -/
def sc (s : LazyStream σ) : Bytes := s.leftover ++ L.content s.producer

end Lawful

/-- Push-back history: entries made by reading only (`new`), after older ones in which no size occurs
more than `k` times. -/
def HistOK (k : Nat) (h : List Nat) (l : Nat) : Prop :=
  ∃ new old, h = new ++ old ∧ (∀ x, (old.filter (· = x)).length ≤ k) ∧ new.Pairwise (· < ·) ∧
    ∀ x ∈ new, l ≤ x

theorem HistOK.nil (k l) : HistOK k [] l := ⟨[], [], by simp⟩

theorem HistOK.mono {k h l l'} (H : HistOK k h l) (hl : l' ≤ l) : HistOK k h l' := by
  obtain ⟨n, o, a, b, c, d⟩ := H
  exact ⟨n, o, a, b, c, fun x hx => hl.trans (d x hx)⟩

theorem HistOK.mono_k {k k' h l} (H : HistOK k h l) (hk : k ≤ k') : HistOK k' h l := by
  obtain ⟨n, o, a, b, c, d⟩ := H
  exact ⟨n, o, a, fun x => (b x).trans hk, c, d⟩

theorem HistOK.of_length {k h l} (hk : h.length ≤ k) : HistOK k h l :=
  ⟨[], h, rfl, fun _ => (List.length_filter_le _ _).trans hk, by simp, by simp⟩

/-- A foreign push (any size) costs one unit of budget. -/
theorem HistOK.foreign {k m l'} {h : List Nat} (hm : h.length ≤ k) :
    HistOK (k+1) (m :: h.take 49) l' := by
  apply HistOK.of_length
  simp; omega

theorem HistOK.push {k h l m} (H : HistOK k h l) (hm : m < l) :
    HistOK k (m :: h.take 49) m := by
  obtain ⟨n, o, rfl, b, c, d⟩ := H
  refine ⟨m :: n.take 49, o.take (49 - n.length), ?_, ?_, ?_, ?_⟩
  · simp [List.take_append]
  · intro x
    exact (List.Sublist.length_le ((List.take_sublist _ _).filter _)).trans (b x)
  · refine List.pairwise_cons.2 ⟨fun x hx => ?_, c.sublist (List.take_sublist _ _)⟩
    exact lt_of_lt_of_le hm (d x (List.mem_of_mem_take hx))
  · intro x hx
    rcases List.mem_cons.1 hx with rfl | hx
    · exact le_refl _
    · exact hm.le.trans (d x (List.mem_of_mem_take hx))

theorem HistOK.count_any {k h l} (H : HistOK k h l) (m : Nat) :
    (h.filter (· = m)).length ≤ k + 1 := by
  obtain ⟨n, o, rfl, b, c, d⟩ := H
  have h1 : (o.filter (· = m)).length ≤ k := b m
  have h2 : (n.filter (· = m)).length ≤ 1 := by
    clear d
    induction n with
    | nil => simp
    | cons a n ih =>
      have h3 := fun x hx => List.rel_of_pairwise_cons (a' := x) c hx
      by_cases ha : a = m
      · have : n.filter (· = m) = [] := by
          rw [List.filter_eq_nil_iff]
          intro x hx
          have := h3 x hx
          simp; omega
        rw [List.filter_cons]
        split <;> simp [this]
      · rw [List.filter_cons]
        simp only [ha, decide_false]
        exact ih (List.Pairwise.of_cons c)
  rw [List.filter_append, List.length_append]; omega

theorem HistOK.count {k h m} (H : HistOK k h m) (_ : ∃ t, h = m :: t) :
    (h.filter (· = m)).length ≤ k + 1 := H.count_any m

/-- A push of any size, whatever the history. -/
theorem HistOK.anyPush {k h l m} (l' : Nat) (H : HistOK k h l) :
    HistOK (k + 2) (m :: h.take 49) l' := by
  refine ⟨[], m :: h.take 49, rfl, fun x => ?_, by simp, by simp⟩
  have h1 := H.count_any x
  have h2 : ((h.take 49).filter (· = x)).length ≤ k + 1 :=
    (List.Sublist.length_le ((List.take_sublist _ _).filter _)).trans h1
  rw [List.filter_cons]
  split
  · rw [List.length_cons]; omega
  · omega

namespace LazyStream
variable {σ : Type} [Producer σ] (L : Lawful σ)

/-- The effect of `next` on a stream over a lawful producer. -/
theorem next_spec (s : LazyStream σ) (h : L.Inv s.producer) :
    (∃ s', s.next = (.ok none, s') ∧ L.Inv s'.producer ∧ L.End s'.producer ∧ L.sc s = [] ∧
      L.sc s' = [] ∧ s.leftover = [] ∧ s'.leftover = [] ∧ s'.position = s.position ∧
      s'.history = s.history ∧ s'.length = s.length ∧ s'.size ≤ s.size) ∨
    (∃ c s', s.next = (.ok (some c), s') ∧ L.Inv s'.producer ∧ L.sc s = c ++ L.sc s' ∧
      s'.leftover = [] ∧ s'.position = s.position + c.length ∧
      ((s.leftover ≠ [] ∧ c = s.leftover ∧ s'.history = s.history ∧ s'.producer = s.producer) ∨
        (s.leftover = [] ∧ s'.history = [] ∧ Producer.next s.producer = (.ok (some c), s'.producer))) ∧
      s'.length = s.length ∧ s'.size < s.size ∧ s'.size + c.length ≤ s.size) := by
  unfold next
  by_cases hl : s.leftover = []
  · rw [if_neg (by simp [hl])]
    rcases L.next_spec s.producer h with ⟨p', e, a1, a2, a3, a4, a5⟩ | ⟨c, p', e, a1, a2, a3, a4⟩
    · left
      rw [e]
      refine ⟨_, rfl, a1, a2, ?_, ?_, hl, hl, rfl, rfl, rfl, ?_⟩
      · simp [Lawful.sc, hl, a3]
      · simp [Lawful.sc, hl, a4]
      · simp [size, hl, a5]
    · right
      rw [e]
      refine ⟨c, _, rfl, a1, ?_, hl, rfl, Or.inr ⟨hl, rfl, by simp⟩, rfl, ?_, ?_⟩
      · simp [Lawful.sc, hl, a2]
      · simpa [size, hl] using a3
      · simpa [size, hl] using a4
  · right
    simp only [ne_eq, hl, not_false_eq_true, if_true]
    refine ⟨s.leftover, _, rfl, h, by simp [Lawful.sc], rfl, rfl, Or.inl ⟨trivial, rfl, rfl, rfl⟩,
      rfl, ?_, ?_⟩
    · have := List.length_pos_iff.2 hl
      simp [size]; omega
    · simp [size]; omega

omit [Producer σ] in
/-- The effect of `unget`. -/
theorem unget_spec (s : LazyStream σ) (b : Bytes) :
    (∃ s', s.unget b = (.ok (), s') ∧ s'.producer = s.producer ∧ s'.leftover = b ++ s.leftover ∧
      s'.position = s.position - b.length ∧ s'.length = s.length ∧
      s'.history = (if b = [] then s.history else b.length :: s.history.take 49)) ∨
    (∃ s', s.unget b = (.error .suspiciousMultipartForm, s') ∧ b ≠ [] ∧
      40 < ((b.length :: s.history.take 49).filter (· = b.length)).length) := by
  unfold unget
  by_cases hb : b = []
  · left; simp [hb]
  · simp only [hb, if_false]
    split
    · right; rename_i h; exact ⟨_, rfl, hb, h⟩
    · left; exact ⟨_, rfl, rfl, rfl, rfl, rfl, rfl⟩

/-- Loop of `read`: the exact prefix is returned, or the guard fires (impossible for a
history reachable by reading). -/
theorem readLoop_spec (k : Nat) (hk : k ≤ 39) :
    ∀ (fuel rem : Nat) (acc : Bytes) (s : LazyStream σ), L.Inv s.producer → s.size < fuel →
      (∃ s', readLoop fuel rem acc s = (.ok (acc ++ (L.sc s).take rem), s') ∧
        L.Inv s'.producer ∧ L.sc s' = (L.sc s).drop rem ∧
        s'.position = s.position + min rem (L.sc s).length ∧ s'.length = s.length ∧
        s'.size + min rem (L.sc s).length ≤ s.size ∧ ((L.sc s).length < rem → L.End s'.producer) ∧
        (HistOK k s.history s.leftover.length → HistOK k s'.history s'.leftover.length)) ∨
      (∃ s', readLoop fuel rem acc s = (.error .suspiciousMultipartForm, s') ∧
        ¬ HistOK k s.history s.leftover.length) := by
  intro fuel
  induction fuel with
  | zero => intro rem acc s _ h; omega
  | succ fuel ih =>
    intro rem acc s hI hf
    unfold readLoop
    by_cases hr : rem = 0
    · left
      subst hr
      exact ⟨s, by simp, hI, by simp, by simp, rfl, by simp, by simp, id⟩
    simp only [hr, if_false]
    rcases next_spec L s hI with
      ⟨s1, e, a1, a2, a3, a4, a5, a6, a7, a8, a9, a10⟩ |
      ⟨c, s1, e, a1, a2, a3, a4, a5, a6, a7, a8⟩
    · left
      rw [e]
      refine ⟨s1, by simp [a3], a1, by simp [a3, a4], by simp [a3, a7], a9, by simpa [a3] using a10,
        fun _ => a2, ?_⟩
      rw [a8, a6, a5]; exact id
    · rw [e]
      have hH : HistOK k s.history s.leftover.length →
          HistOK k s1.history c.length := by
        intro H
        rcases a5 with ⟨_, b2, b3, _⟩ | ⟨_, b2, _⟩
        · rw [b2, b3]; exact H
        · rw [b2]; exact HistOK.nil _ _
      have hlt : c.drop rem ≠ [] → (c.drop rem).length < c.length := by
        intro h
        have : 0 < (c.drop rem).length := List.length_pos_iff.2 h
        simp at *; omega
      simp only
      rcases unget_spec s1 (c.drop rem) with ⟨s2, e2, b1, b2, b3, b4, b5⟩ | ⟨s2, e2, b1, b2⟩
      · rw [e2]
        have hH2 : HistOK k s.history s.leftover.length →
            HistOK k s2.history s2.leftover.length := by
          intro H
          have H1 := hH H
          rw [b2, a3, b5]
          split
          · rename_i h; simp [h]; exact H1.mono (Nat.zero_le _)
          · rename_i h
            simpa using H1.push (hlt h)
        have hs2 : s2.size < fuel := by
          have : s2.size = (c.drop rem).length + Producer.size s1.producer := by
            simp [size, b1, b2, a3]
          have e1 : s1.size = Producer.size s1.producer := by simp [size, a3]
          rw [this]
          rw [e1] at a7 a8
          by_cases hc : c = []
          · simp [hc]; omega
          · have := List.length_pos_iff.2 hc
            simp; omega
        have hs2' : s2.size + min rem c.length ≤ s.size := by
          have : s2.size = (c.drop rem).length + Producer.size s1.producer := by
            simp [size, b1, b2, a3]
          have e1 : s1.size = Producer.size s1.producer := by simp [size, a3]
          rw [this]; rw [e1] at a8; simp; omega
        have hsc1 : L.sc s1 = L.content s1.producer := by simp [Lawful.sc, a3]
        have hsc : L.sc s2 = (c.drop rem) ++ L.content s1.producer := by
          simp [Lawful.sc, b1, b2, a3]
        simp only
        have key := ih (rem - (c.take rem).length) (acc ++ c.take rem) s2 (by rw [b1]; exact a1) hs2
        have htake : c.take rem ++ (L.sc s2).take (rem - (c.take rem).length) = (L.sc s).take rem := by
          rw [a2, hsc1, hsc, List.length_take]
          rcases Nat.le_total rem c.length with h | h
          · simp [Nat.min_eq_left h, List.take_append_of_le_length h]
          · simp [Nat.min_eq_right h, List.drop_eq_nil_of_le h, List.take_append]
        have hdrop : (L.sc s2).drop (rem - (c.take rem).length) = (L.sc s).drop rem := by
          rw [a2, hsc1, hsc, List.length_take]
          rcases Nat.le_total rem c.length with h | h
          · simp [Nat.min_eq_left h, List.drop_append_of_le_length h]
          · simp [Nat.min_eq_right h, List.drop_eq_nil_of_le h, List.drop_append]
        have hlen : (L.sc s).length = c.length + (L.content s1.producer).length := by
          rw [a2, hsc1]; simp
        have hlen2 : (L.sc s2).length = (c.length - rem) + (L.content s1.producer).length := by
          rw [hsc]; simp
        rcases key with ⟨s', f1, f2, f3, f4, f5, f6, f7, f8⟩ | ⟨s', f1, f2⟩
        · left
          refine ⟨s', ?_, f2, ?_, ?_, ?_, ?_, ?_, ?_⟩
          · rw [f1, List.append_assoc, htake]
          · rw [f3, hdrop]
          · rw [f4, b3, a4, hlen2, hlen]
            simp only [List.length_take, List.length_drop]
            omega
          · rw [f5, b4, a6]
          · rw [hlen2, List.length_take] at f6; rw [hlen]; omega
          · intro h
            apply f7
            rw [hlen2, List.length_take]; omega
          · exact fun H => f8 (hH2 H)
        · right
          exact ⟨s', f1, fun H => f2 (hH2 H)⟩
      · right
        rw [e2]
        refine ⟨s2, rfl, fun H => ?_⟩
        have := ((hH H).push (hlt b1)).count ⟨_, rfl⟩
        omega

theorem joinAll_spec :
    ∀ (fuel : Nat) (acc : Bytes) (s : LazyStream σ), L.Inv s.producer → s.size < fuel →
      ∃ s', joinAll fuel acc s = (.ok (acc ++ L.sc s), s') ∧
        L.Inv s'.producer ∧ L.sc s' = [] ∧ L.End s'.producer ∧
        s'.position = s.position + (L.sc s).length ∧ s'.length = s.length ∧ s'.leftover = [] ∧
        s'.size ≤ s.size ∧
        (s'.history = s.history ∨ s'.history = []) := by
  intro fuel
  induction fuel with
  | zero => intro acc s _ h; omega
  | succ fuel ih =>
    intro acc s hI hf
    unfold joinAll
    rcases next_spec L s hI with
      ⟨s1, e, a1, a2, a3, a4, a5, a6, a7, a8, a9, a10⟩ |
      ⟨c, s1, e, a1, a2, a3, a4, a5, a6, a7, a8⟩
    · rw [e]
      exact ⟨s1, by simp [a3], a1, a4, a2, by simp [a3, a7], a9, a6, a10, Or.inl a8⟩
    · rw [e]
      obtain ⟨s', f1, f2, f3, f4, f5, f6, f7, f9, f8⟩ := ih (acc ++ c) s1 a1 (by omega)
      refine ⟨s', ?_, f2, f3, f4, ?_, by rw [f6, a6], f7, by omega, ?_⟩
      · simp only [f1, a2, List.append_assoc]
      · rw [f5, a4, a2]; simp; omega
      · rcases a5 with ⟨_, _, b3, _⟩ | ⟨_, b2, _⟩
        · rw [b3] at f8; exact f8
        · rw [b2] at f8; right; simpa using f8

theorem exhaustLoop_spec :
    ∀ (fuel : Nat) (s : LazyStream σ), L.Inv s.producer → s.size < fuel →
      ∃ s', exhaustLoop fuel s = (.ok (), s') ∧
        L.Inv s'.producer ∧ L.sc s' = [] ∧ L.End s'.producer ∧ s'.leftover = [] := by
  intro fuel
  induction fuel with
  | zero => intro s _ h; omega
  | succ fuel ih =>
    intro s hI hf
    unfold exhaustLoop
    rcases next_spec L s hI with
      ⟨s1, e, a1, a2, a3, a4, a5, a6, a7, a8, a9, a10⟩ |
      ⟨c, s1, e, a1, a2, a3, a4, a5, a6, a7, a8⟩
    · rw [e]; exact ⟨s1, rfl, a1, a4, a2, a6⟩
    · rw [e]; exact ih s1 a1 (by omega)

theorem exhaust_spec (s : LazyStream σ) (h : L.Inv s.producer) :
    ∃ s', exhaust s = (.ok (), s') ∧
        L.Inv s'.producer ∧ L.sc s' = [] ∧ L.End s'.producer ∧ s'.leftover = [] :=
  exhaustLoop_spec L _ s h (by omega)

/-- `read(n)` for `n ≥ 0`. -/
theorem read_spec (k : Nat) (hk : k ≤ 39) (n : Nat) (s : LazyStream σ) (h : L.Inv s.producer) :
      (∃ s', s.read (some n) = (.ok ((L.sc s).take n), s') ∧
        L.Inv s'.producer ∧ L.sc s' = (L.sc s).drop n ∧
        s'.position = s.position + min n (L.sc s).length ∧ s'.length = s.length ∧
        s'.size + min n (L.sc s).length ≤ s.size ∧ ((L.sc s).length < n → L.End s'.producer) ∧
        (HistOK k s.history s.leftover.length → HistOK k s'.history s'.leftover.length)) ∨
      (∃ s', s.read (some n) = (.error .suspiciousMultipartForm, s') ∧
        ¬ HistOK k s.history s.leftover.length) := by
  have := readLoop_spec L k hk (s.size + 1) n [] s h (by omega)
  have e : s.read (some n) = readLoop (s.size + 1) n [] s := by
    simp only [read]
    rw [if_neg (by omega)]; simp
  rw [e]
  simpa using this

theorem read_ok (k : Nat) (hk : k ≤ 39) (n : Nat) (s : LazyStream σ) (h : L.Inv s.producer)
    (hh : HistOK k s.history s.leftover.length) :
      ∃ s', s.read (some n) = (.ok ((L.sc s).take n), s') ∧
        L.Inv s'.producer ∧ L.sc s' = (L.sc s).drop n ∧
        s'.position = s.position + min n (L.sc s).length ∧ s'.length = s.length ∧
        s'.size + min n (L.sc s).length ≤ s.size ∧ ((L.sc s).length < n → L.End s'.producer) ∧
        HistOK k s'.history s'.leftover.length := by
  rcases read_spec L k hk n s h with ⟨s', a1, a2, a3, a4, a5, a6, a7, a8⟩ | ⟨s', _, b⟩
  · exact ⟨s', a1, a2, a3, a4, a5, a6, a7, a8 hh⟩
  · exact absurd hh b

/-- `read()` without a size on a stream without a length. -/
theorem readAll_spec (s : LazyStream σ) (h : L.Inv s.producer) (hl : s.length = none) :
    ∃ s', s.read none = (.ok (L.sc s), s') ∧
        L.Inv s'.producer ∧ L.sc s' = [] ∧ L.End s'.producer ∧
        s'.position = s.position + (L.sc s).length ∧ s'.length = s.length ∧ s'.leftover = [] ∧
        s'.size ≤ s.size ∧ (s'.history = s.history ∨ s'.history = []) := by
  have := joinAll_spec L (s.size + 1) [] s h (by omega)
  simpa [read, hl] using this

end LazyStream

/-- `ChunkIter` over a stream whose history came from reading is lawful. -/
def ChunkIter.lawful {σ : Type} [Producer σ] (L : Lawful σ) : Lawful (ChunkIter σ) where
  Inv c := L.Inv c.flo.producer ∧ 1 ≤ c.chunkSize ∧ HistOK 39 c.flo.history c.flo.leftover.length
  End c := L.sc c.flo = []
  content c := L.sc c.flo
  next_spec := by
    rintro c ⟨h1, h2, h3⟩
    obtain ⟨s', a1, a2, a3, a4, a5, a6, a7, a8⟩ := LazyStream.read_ok L 39 (le_refl _) c.chunkSize c.flo h1 h3
    by_cases hc : L.sc c.flo = []
    · left
      refine ⟨{ c with flo := s' }, ?_, ⟨a2, h2, a8⟩, ?_, hc, ?_, ?_⟩
      · simp [Producer.next, ChunkIter.next, a1, hc]
      · simp [a3, hc]
      · simp [a3, hc]
      · simp only [Producer.size]; omega
    · right
      have hne : (L.sc c.flo).take c.chunkSize ≠ [] := by
        simp [hc]; omega
      have hpos := List.length_pos_iff.2 hc
      refine ⟨(L.sc c.flo).take c.chunkSize, { c with flo := s' }, ?_, ⟨a2, h2, a8⟩, ?_, ?_, ?_⟩
      · simp only [Producer.next, ChunkIter.next, a1]
        rw [if_pos hne]
      · simp [a3]
      · simp only [Producer.size]; omega
      · simp only [Producer.size, List.length_take]; omega

/-- Every chunk of a `ChunkIter` is non-empty. -/
theorem ChunkIter.next_ne_nil {σ : Type} [Producer σ] (c c' : ChunkIter σ) (d : Bytes)
    (h : Producer.next c = (.ok (some d), c')) : d ≠ [] := by
  simp only [Producer.next, ChunkIter.next] at h
  split at h <;> try simp at h
  rename_i data f _
  intro hd
  subst hd
  by_cases hh : data = []
  · simp [hh] at h
  · simp [hh] at h

end Verif
