import Verif.Proofs.Request
/-!
Two streams with the same remaining content that received it in different pieces: everything the parser does
with them gives the same results.  The producers are related by `R`; streams and part iterators above them are
related by `LS` and `BI`.
-/

namespace Verif

/-- How `size` goes down with a call of `next` that returned `r`. -/
def Dec (r : Except Exc (Option Bytes)) (a b : Nat) : Prop :=
  b ≤ a ∧ ∀ c, r = .ok (some c) → b < a ∧ b + c.length ≤ a

/-- Related producers answer alike and stay related. -/
structure Sim {τ : Type} [Producer τ] (R : τ → τ → Prop) : Prop where
  next : ∀ p q, R p q → ∃ r p' q', Producer.next p = (r, p') ∧ Producer.next q = (r, q') ∧ R p' q' ∧
    Dec r (Producer.size p) (Producer.size p') ∧ Dec r (Producer.size q) (Producer.size q')

/-- Streams over related producers that agree in everything else. -/
structure LS {τ : Type} (R : τ → τ → Prop) (s t : LazyStream τ) : Prop where
  prod : R s.producer t.producer
  left : s.leftover = t.leftover
  len : s.length = t.length
  pos : s.position = t.position
  hist : s.history = t.history

section
variable {τ : Type} [Producer τ] {R : τ → τ → Prop}

theorem LS.next (hR : Sim R) {s t : LazyStream τ} (h : LS R s t) :
    ∃ r s' t', s.next = (r, s') ∧ t.next = (r, t') ∧ LS R s' t' ∧ Dec r s.size s'.size ∧ Dec r t.size t'.size ∧
      (s.leftover ≠ [] → ∃ c, r = .ok (some c)) := by
  obtain ⟨sp, sl, sn, spos, sh⟩ := s
  obtain ⟨tp, tl, tn, tpos, th⟩ := t
  obtain ⟨hp, rfl, rfl, rfl, rfl⟩ := h
  simp only at hp
  unfold LazyStream.next
  simp only
  by_cases hl : sl = []
  · subst hl
    obtain ⟨r, p', q', e1, e2, a1, a2, a3⟩ := hR.next _ _ hp
    rw [if_neg (by simp), if_neg (by simp), e1, e2]
    match r with
    | .error e =>
      exact ⟨_, _, _, rfl, rfl, ⟨a1, rfl, rfl, rfl, rfl⟩, by simpa [LazyStream.size] using a2,
        by simpa [LazyStream.size] using a3, by simp⟩
    | .ok none =>
      exact ⟨_, _, _, rfl, rfl, ⟨a1, rfl, rfl, rfl, rfl⟩, by simpa [LazyStream.size] using a2,
        by simpa [LazyStream.size] using a3, by simp⟩
    | .ok (some c) =>
      exact ⟨_, _, _, rfl, rfl, ⟨a1, rfl, rfl, rfl, rfl⟩, by simpa [LazyStream.size] using a2,
        by simpa [LazyStream.size] using a3, by simp⟩
  · rw [if_pos hl, if_pos hl]
    have hlen := List.length_pos_iff.2 hl
    refine ⟨_, _, _, rfl, rfl, ⟨hp, rfl, rfl, rfl, rfl⟩, ?_, ?_, fun _ => ⟨_, rfl⟩⟩ <;>
    · refine ⟨by simp [LazyStream.size], fun c hc => ?_⟩
      simp only [Except.ok.injEq, Option.some.injEq] at hc
      subst hc
      simp only [LazyStream.size, List.length_nil]
      omega

theorem LS.unget {s t : LazyStream τ} (h : LS R s t) (b : Bytes) :
    ∃ r s' t', s.unget b = (r, s') ∧ t.unget b = (r, t') ∧ LS R s' t' ∧
      s'.size ≤ s.size + b.length ∧ t'.size ≤ t.size + b.length ∧
      (r = .ok () → b ≠ [] → s'.leftover ≠ []) := by
  obtain ⟨sp, sl, sn, spos, sh⟩ := s
  obtain ⟨tp, tl, tn, tpos, th⟩ := t
  obtain ⟨hp, rfl, rfl, rfl, rfl⟩ := h
  simp only at hp
  unfold LazyStream.unget
  simp only
  split
  · exact ⟨_, _, _, rfl, rfl, ⟨hp, rfl, rfl, rfl, rfl⟩, by omega, by omega, fun _ h => by contradiction⟩
  split
  · exact ⟨_, _, _, rfl, rfl, ⟨hp, rfl, rfl, rfl, rfl⟩, by simp [LazyStream.size], by simp [LazyStream.size],
      fun h => by cases h⟩
  · refine ⟨_, _, _, rfl, rfl, ⟨hp, rfl, rfl, rfl, rfl⟩, ?_, ?_, fun _ h => by simp [h]⟩ <;>
      simp only [LazyStream.size, List.length_append] <;> omega

theorem LS.readLoop (hR : Sim R) : ∀ (f g rem : Nat) (acc : Bytes) {s t : LazyStream τ}, LS R s t → s.size < f → t.size < g →
    ∃ r s' t', LazyStream.readLoop f rem acc s = (r, s') ∧ LazyStream.readLoop g rem acc t = (r, t') ∧ LS R s' t' ∧
      s'.size ≤ s.size ∧ t'.size ≤ t.size ∧
      ∀ d, r = .ok d → s'.size + d.length ≤ s.size + acc.length ∧ t'.size + d.length ≤ t.size + acc.length := by
  intro f
  induction f with
  | zero => intro g rem acc s t _ h; omega
  | succ f ih =>
    intro g rem acc s t h hf hg
    match g, hg with
    | 0, hg => omega
    | g + 1, hg =>
    unfold LazyStream.readLoop
    by_cases hr : rem = 0
    · rw [if_pos hr, if_pos hr]
      exact ⟨_, _, _, rfl, rfl, h, by omega, by omega, fun d hd => by cases hd; omega⟩
    rw [if_neg hr, if_neg hr]
    obtain ⟨r, s1, t1, e1, e2, a1, a2, a3, -⟩ := h.next hR
    rw [e1, e2]
    match r with
    | .error e => exact ⟨_, _, _, rfl, rfl, a1, a2.1, a3.1, fun d hd => by cases hd⟩
    | .ok none => exact ⟨_, _, _, rfl, rfl, a1, a2.1, a3.1, fun d hd => by cases hd; have := a2.1; have := a3.1; omega⟩
    | .ok (some c) =>
      simp only
      obtain ⟨b2, b2'⟩ := a2.2 c rfl
      obtain ⟨b3, b3'⟩ := a3.2 c rfl
      obtain ⟨r, s2, t2, e1, e2, c1, c2, c3, -⟩ := a1.unget (c.drop rem)
      rw [List.length_drop] at c2 c3
      rw [e1, e2]
      match r with
      | .error e => exact ⟨_, _, _, rfl, rfl, c1, by omega, by omega, fun d hd => by cases hd⟩
      | .ok () =>
        simp only
        obtain ⟨r, s3, t3, e1, e2, d1, d2, d3, d4⟩ := ih g (rem - (c.take rem).length) (acc ++ c.take rem) c1
          (by omega) (by omega)
        refine ⟨_, _, _, e1, e2, d1, by omega, by omega, fun d hd => ?_⟩
        obtain ⟨k1, k2⟩ := d4 d hd
        simp only [List.length_append, List.length_take] at k1 k2
        omega

theorem LS.joinAll (hR : Sim R) : ∀ (f g : Nat) (acc : Bytes) {s t : LazyStream τ}, LS R s t → s.size < f → t.size < g →
    ∃ r s' t', LazyStream.joinAll f acc s = (r, s') ∧ LazyStream.joinAll g acc t = (r, t') ∧ LS R s' t' ∧
      s'.size ≤ s.size ∧ t'.size ≤ t.size ∧
      ∀ d, r = .ok d → s'.size + d.length ≤ s.size + acc.length ∧ t'.size + d.length ≤ t.size + acc.length := by
  intro f
  induction f with
  | zero => intro g acc s t _ h; omega
  | succ f ih =>
    intro g acc s t h hf hg
    match g, hg with
    | 0, hg => omega
    | g + 1, hg =>
    unfold LazyStream.joinAll
    obtain ⟨r, s1, t1, e1, e2, a1, a2, a3, -⟩ := h.next hR
    rw [e1, e2]
    match r with
    | .error e => exact ⟨_, _, _, rfl, rfl, a1, a2.1, a3.1, fun d hd => by cases hd⟩
    | .ok none => exact ⟨_, _, _, rfl, rfl, a1, a2.1, a3.1, fun d hd => by cases hd; have := a2.1; have := a3.1; omega⟩
    | .ok (some c) =>
      simp only
      obtain ⟨b2, b2'⟩ := a2.2 c rfl
      obtain ⟨b3, b3'⟩ := a3.2 c rfl
      obtain ⟨r, s3, t3, e1, e2, d1, d2, d3, d4⟩ := ih g (acc ++ c) a1 (by omega) (by omega)
      refine ⟨_, _, _, e1, e2, d1, by omega, by omega, fun d hd => ?_⟩
      obtain ⟨k1, k2⟩ := d4 d hd
      simp only [List.length_append, List.length_take] at k1 k2
      omega

theorem LS.read (hR : Sim R) {s t : LazyStream τ} (h : LS R s t) (n : Option Int) :
    ∃ r s' t', s.read n = (r, s') ∧ t.read n = (r, t') ∧ LS R s' t' ∧ s'.size ≤ s.size ∧ t'.size ≤ t.size ∧
      ∀ d, r = .ok d → s'.size + d.length ≤ s.size ∧ t'.size + d.length ≤ t.size := by
  unfold LazyStream.read
  rw [← h.len]
  simp only
  split
  · simpa using h.joinAll hR (s.size + 1) (t.size + 1) [] (by omega) (by omega)
  · split
    · exact ⟨_, _, _, rfl, rfl, h, by omega, by omega, fun d hd => by cases hd⟩
    · simpa using h.readLoop hR (s.size + 1) (t.size + 1) _ [] (by omega) (by omega)

theorem LS.exhaustLoop (hR : Sim R) : ∀ (f g : Nat) {s t : LazyStream τ}, LS R s t → s.size < f → t.size < g →
    ∃ r s' t', Verif.exhaustLoop f s = (r, s') ∧ Verif.exhaustLoop g t = (r, t') ∧ LS R s' t' ∧
      s'.size ≤ s.size ∧ t'.size ≤ t.size := by
  intro f
  induction f with
  | zero => intro g s t _ h; omega
  | succ f ih =>
    intro g s t h hf hg
    match g, hg with
    | 0, hg => omega
    | g + 1, hg =>
    unfold Verif.exhaustLoop
    obtain ⟨r, s1, t1, e1, e2, a1, a2, a3, -⟩ := h.next hR
    rw [e1, e2]
    match r with
    | .error e => exact ⟨_, _, _, rfl, rfl, a1, a2.1, a3.1⟩
    | .ok none => exact ⟨_, _, _, rfl, rfl, a1, a2.1, a3.1⟩
    | .ok (some c) =>
      simp only
      obtain ⟨b2, b2'⟩ := a2.2 c rfl
      obtain ⟨b3, b3'⟩ := a3.2 c rfl
      obtain ⟨r, s3, t3, e1, e2, d1, d2, d3⟩ := ih g a1 (by omega) (by omega)
      exact ⟨_, _, _, e1, e2, d1, by omega, by omega⟩

theorem LS.exhaust (hR : Sim R) {s t : LazyStream τ} (h : LS R s t) :
    ∃ r s' t', Verif.exhaust s = (r, s') ∧ Verif.exhaust t = (r, t') ∧ LS R s' t' ∧
      s'.size ≤ s.size ∧ t'.size ≤ t.size :=
  h.exhaustLoop hR _ _ (by omega) (by omega)

/-! ### Parts -/

/-- Part iterators over related streams; `N` and `M` bound the sizes of the body streams. -/
structure BI (R : τ → τ → Prop) (N M : Nat) (b c : BoundaryIter τ) : Prop where
  stream : LS R b.stream c.stream
  boundary : b.boundary = c.boundary
  ne : b.boundary ≠ []
  rollback : b.rollback = c.rollback
  done : b.done = c.done
  left : b.stream.size ≤ N
  right : c.stream.size ≤ M

theorem LS.gather (hR : Sim R) (rb : Nat) : ∀ (f g : Nat) (acc : Bytes) (any : Bool) {s t : LazyStream τ}, LS R s t →
    s.size < f → t.size < g →
    ∃ r s' t', BoundaryIter.gather rb f acc any s = (r, s') ∧ BoundaryIter.gather rb g acc any t = (r, t') ∧ LS R s' t' ∧
      s'.size ≤ s.size ∧ t'.size ≤ t.size ∧
      ∀ acc' any' st', r = .ok (acc', any', st') →
        s'.size + acc'.length ≤ s.size + acc.length ∧ t'.size + acc'.length ≤ t.size + acc.length ∧
        (any = true ∨ s.leftover ≠ [] → any' = true) ∧
        (any = false → any' = true → s'.size < s.size ∧ t'.size < t.size) := by
  intro f
  induction f with
  | zero => intro g acc any s t _ h; omega
  | succ f ih =>
    intro g acc any s t h hf hg
    match g, hg with
    | 0, hg => omega
    | g + 1, hg =>
    unfold BoundaryIter.gather
    obtain ⟨r, s1, t1, e1, e2, a1, a2, a3, a4⟩ := h.next hR
    rw [e1, e2]
    match r with
    | .error e => exact ⟨_, _, _, rfl, rfl, a1, a2.1, a3.1, by simp⟩
    | .ok none =>
      refine ⟨_, _, _, rfl, rfl, a1, a2.1, a3.1, ?_⟩
      intro acc' any' st' he
      simp only [Except.ok.injEq, Prod.mk.injEq] at he
      obtain ⟨rfl, rfl, rfl⟩ := he
      refine ⟨by have := a2.1; omega, by have := a3.1; omega, ?_, ?_⟩
      · rintro (h | h)
        · exact h
        · obtain ⟨c, hc⟩ := a4 h; cases hc
      · intro h h'; rw [h] at h'; cases h'
    | .ok (some c) =>
      simp only
      obtain ⟨b2, b2'⟩ := a2.2 c rfl
      obtain ⟨b3, b3'⟩ := a3.2 c rfl
      split
      · refine ⟨_, _, _, rfl, rfl, a1, a2.1, a3.1, ?_⟩
        intro acc' any' st' he
        simp only [Except.ok.injEq, Prod.mk.injEq] at he
        obtain ⟨rfl, rfl, rfl⟩ := he
        simp only [List.length_append]
        exact ⟨by omega, by omega, by simp, fun _ _ => ⟨b2, b3⟩⟩
      split
      · refine ⟨_, _, _, rfl, rfl, a1, a2.1, a3.1, ?_⟩
        intro acc' any' st' he
        simp only [Except.ok.injEq, Prod.mk.injEq] at he
        obtain ⟨rfl, rfl, rfl⟩ := he
        simp only [List.length_append]
        exact ⟨by omega, by omega, by simp, fun _ _ => ⟨b2, b3⟩⟩
      · obtain ⟨r, s3, t3, e1, e2, d1, d2, d3, d4⟩ := ih g (acc ++ c) true a1 (by omega) (by omega)
        refine ⟨_, _, _, e1, e2, d1, by omega, by omega, ?_⟩
        intro acc' any' st' he
        obtain ⟨k1, k2, k3, -⟩ := d4 _ _ _ he
        rw [List.length_append] at k1 k2
        exact ⟨by omega, by omega, fun _ => k3 (Or.inl rfl), fun _ _ => ⟨by omega, by omega⟩⟩

theorem findBoundary_bound {sep data : Bytes} {e n : Nat} (h : BoundaryIter.findBoundary sep data = some (e, n)) :
    e ≤ data.length ∧ sep.length ≤ n := by
  unfold BoundaryIter.findBoundary at h
  split at h
  · cases h
  rename_i index hi
  simp only [Option.some.injEq, Prod.mk.injEq] at h
  obtain ⟨h1, h2⟩ := h
  refine ⟨?_, by omega⟩
  have : index ≤ data.length := by
    have := Py.find_bound hi
    omega
  subst h1
  split <;> split <;> omega

theorem BI.next (hR : Sim R) {N M : Nat} {b c : BoundaryIter τ} (h : BI R N M b c) :
    ∃ r b' c', b.next = (r, b') ∧ c.next = (r, c') ∧ BI R N M b' c' ∧
      Dec r (Producer.size b) (Producer.size b') ∧ Dec r (Producer.size c) (Producer.size c') ∧
      (b.done = false → b.stream.leftover ≠ [] → ∀ x, r = .ok x →
        b'.stream.size < b.stream.size ∧ c'.stream.size < c.stream.size) := by
  obtain ⟨bs, bb, br, bd⟩ := b
  obtain ⟨cs, cb, cr, cd⟩ := c
  obtain ⟨h1, h2, h3, h4, h5, h6, h7⟩ := h
  simp only at h1 h2 h3 h4 h5 h6 h7
  subst h2 h4 h5
  unfold BoundaryIter.next
  simp only
  cases bd with
  | true =>
    rw [if_pos rfl, if_pos rfl]
    exact ⟨_, _, _, rfl, rfl, ⟨h1, rfl, h3, rfl, rfl, h6, h7⟩, ⟨Nat.le_refl _, by simp⟩, ⟨Nat.le_refl _, by simp⟩, by simp⟩
  | false =>
  rw [if_neg (by simp), if_neg (by simp)]
  obtain ⟨r, s1, t1, e1, e2, a1, a2, a3, a4⟩ := h1.gather hR br (bs.size + 1) (cs.size + 1) [] false
    (by omega) (by omega)
  rw [e1, e2]
  have hbs : ∀ s : LazyStream τ, Producer.size (⟨s, bb, br, false⟩ : BoundaryIter τ) = 1 + s.size := fun _ => rfl
  have hbt : ∀ s : LazyStream τ, Producer.size (⟨s, bb, br, true⟩ : BoundaryIter τ) = 0 := fun _ => rfl
  match r with
  | .error e =>
    refine ⟨_, _, _, rfl, rfl, ⟨a1, rfl, h3, rfl, rfl, by simp; omega, by simp; omega⟩, ⟨?_, by simp⟩, ⟨?_, by simp⟩, by simp⟩
    · rw [hbs, hbs]; omega
    · rw [hbs, hbs]; omega
  | .ok (chunk, any, stopped) =>
    simp only
    obtain ⟨k1, k2, k3, k4⟩ := a4 _ _ _ rfl
    simp only [List.length_nil, Nat.add_zero] at k1 k2
    have hany : ∀ s : LazyStream τ, Producer.size (⟨s, bb, br, stopped⟩ : BoundaryIter τ) ≤ 1 + s.size := by
      intro s; cases stopped
      · exact Nat.le_refl _
      · exact Nat.zero_le _
    cases any with
    | false =>
      rw [if_pos rfl, if_pos rfl]
      refine ⟨_, _, _, rfl, rfl, ⟨a1, rfl, h3, rfl, rfl, by simp; omega, by simp; omega⟩, ⟨?_, by simp⟩, ⟨?_, by simp⟩, ?_⟩
      · rw [hbs]; have := hany s1; omega
      · rw [hbs]; have := hany t1; omega
      · intro _ h; have := k3 (Or.inr h); cases this
    | true =>
    rw [if_neg (show ¬ (true = false) by simp), if_neg (show ¬ (true = false) by simp)]
    obtain ⟨m1, m2⟩ := k4 rfl rfl
    match hfb : BoundaryIter.findBoundary bb chunk with
    | some (end_, nxt) =>
      simp only
      obtain ⟨n1, n2⟩ := findBoundary_bound hfb
      have hsep := List.length_pos_iff.2 h3
      obtain ⟨r, s2, t2, e1, e2, c1, c2, c3, -⟩ := a1.unget (chunk.drop nxt)
      rw [List.length_drop] at c2 c3
      rw [e1, e2]
      match r with
      | .error e =>
        refine ⟨_, _, _, rfl, rfl, ⟨c1, rfl, h3, rfl, rfl, by simp; omega, by simp; omega⟩, ⟨?_, by simp⟩, ⟨?_, by simp⟩, by simp⟩
        · rw [hbs]; have := hany s2; omega
        · rw [hbs]; have := hany t2; omega
      | .ok () =>
        refine ⟨_, _, _, rfl, rfl, ⟨c1, rfl, h3, rfl, rfl, by simp; omega, by simp; omega⟩, ⟨?_, ?_⟩, ⟨?_, ?_⟩, ?_⟩
        · rw [hbs, hbt]; omega
        · intro d hd
          simp only [Except.ok.injEq, Option.some.injEq] at hd
          subst hd
          rw [hbs, hbt, List.length_take]; omega
        · rw [hbs, hbt]; omega
        · intro d hd
          simp only [Except.ok.injEq, Option.some.injEq] at hd
          subst hd
          rw [hbs, hbt, List.length_take]; omega
        · intro _ _ _ _
          simp only
          omega
    | none =>
      simp only
      split
      · refine ⟨_, _, _, rfl, rfl, ⟨a1, rfl, h3, rfl, rfl, by simp; omega, by simp; omega⟩, ⟨?_, ?_⟩, ⟨?_, ?_⟩, ?_⟩
        · rw [hbs, hbt]; omega
        · intro d hd
          simp only [Except.ok.injEq, Option.some.injEq] at hd
          subst hd
          rw [hbs, hbt]; omega
        · rw [hbs, hbt]; omega
        · intro d hd
          simp only [Except.ok.injEq, Option.some.injEq] at hd
          subst hd
          rw [hbs, hbt]; omega
        · intro _ _ _ _
          simp only
          omega
      · rename_i hlen
        obtain ⟨r, s2, t2, e1, e2, c1, c2, c3, -⟩ := a1.unget (chunk.drop (chunk.length - br))
        rw [List.length_drop] at c2 c3
        rw [e1, e2]
        match r with
        | .error e =>
          refine ⟨_, _, _, rfl, rfl, ⟨c1, rfl, h3, rfl, rfl, by simp; omega, by simp; omega⟩, ⟨?_, by simp⟩, ⟨?_, by simp⟩, by simp⟩
          · rw [hbs]; have := hany s2; omega
          · rw [hbs]; have := hany t2; omega
        | .ok () =>
          refine ⟨_, _, _, rfl, rfl, ⟨c1, rfl, h3, rfl, rfl, by simp; omega, by simp; omega⟩, ⟨?_, ?_⟩, ⟨?_, ?_⟩, ?_⟩
          · rw [hbs]; have := hany s2; omega
          · intro d hd
            simp only [Except.ok.injEq, Option.some.injEq] at hd
            subst hd
            rw [hbs, List.length_take]; have := hany s2; omega
          · rw [hbs]; have := hany t2; omega
          · intro d hd
            simp only [Except.ok.injEq, Option.some.injEq] at hd
            subst hd
            rw [hbs, List.length_take]; have := hany t2; omega
          · intro _ _ _ _
            simp only
            omega

theorem BI.sim (hR : Sim R) (N M : Nat) : Sim (BI R N M) where
  next p q h := by
    obtain ⟨r, b', c', e1, e2, a1, a2, a3, -⟩ := h.next hR
    exact ⟨r, b', c', e1, e2, a1, a2, a3⟩

/-- The next part: fresh part streams over related body streams. -/
theorem LS.nextPart (hR : Sim R) {s t : LazyStream τ} (h : LS R s t) {sep : Bytes} (hs : sep ≠ []) :
    (∃ r s' t', Verif.nextPart s sep = (r, s') ∧ Verif.nextPart t sep = (r, t') ∧ LS R s' t' ∧
      ∀ x, r ≠ .ok (some x)) ∨
    (∃ b c s' t', Verif.nextPart s sep = (.ok (some (LazyStream.mk' b)), s') ∧
      Verif.nextPart t sep = (.ok (some (LazyStream.mk' c)), t') ∧ BI R s.size t.size b c ∧
      b.done = false ∧ b.stream.leftover ≠ []) := by
  unfold Verif.nextPart BoundaryIter.create
  obtain ⟨r, s1, t1, e1, e2, a1, a2, a3, a4⟩ := h.read hR (some 1)
  rw [e1, e2]
  match r with
  | .error e =>
    left
    by_cases he : e = .inputStreamExhausted
    · subst he
      exact ⟨_, _, _, rfl, rfl, a1, by simp⟩
    · refine ⟨.error e, s1, t1, ?_, ?_, a1, by simp⟩ <;>
      · simp only
  | .ok d =>
    simp only
    by_cases hd : d = []
    · left
      rw [if_pos hd, if_pos hd]
      exact ⟨_, _, _, rfl, rfl, a1, by simp⟩
    · rw [if_neg hd, if_neg hd]
      obtain ⟨k1, k2⟩ := a4 d rfl
      obtain ⟨r, s2, t2, e1, e2, c1, c2, c3, c4⟩ := a1.unget d
      rw [e1, e2]
      match r with
      | .error e =>
        left
        by_cases he : e = .inputStreamExhausted
        · subst he
          exact ⟨_, _, _, rfl, rfl, c1, by simp⟩
        · refine ⟨.error e, s2, t2, ?_, ?_, c1, by simp⟩ <;>
          · simp only
      | .ok () =>
        right
        exact ⟨_, _, _, _, rfl, rfl, ⟨c1, rfl, hs, rfl, rfl, by simp only; omega, by simp only; omega⟩, rfl, c4 rfl hd⟩

/-- The position of a stream after its first `next`. -/
def firstPos : Except Exc (Option Bytes) → Int
  | .ok (some d) => d.length
  | _ => 0

/-- Reading from fresh streams over producers of which it is known what the first `next` does. -/
theorem firstRead_gen {π : Type} [Producer π] {B B' : π → π → Prop} (hB' : Sim B') (hmono : ∀ p q, B' p q → B p q)
    {b c b' c' : π} {r : Except Exc (Option Bytes)} (e1 : Producer.next b = (r, b')) (e2 : Producer.next c = (r, c'))
    (a1 : B b' c') (a2 : Dec r (Producer.size b) (Producer.size b')) (a3 : Dec r (Producer.size c) (Producer.size c'))
    (a4 : ∀ x, r = .ok x → B' b' c') (n : Nat) (hn : n ≠ 0) :
    ∃ r s' t', (LazyStream.mk' b).read (some n) = (r, s') ∧ (LazyStream.mk' c).read (some n) = (r, t') ∧
      LS B s' t' ∧ ∀ d, r = .ok d → LS B' s' t' := by
  have e1' : (LazyStream.mk' b).next = (r, { LazyStream.mk' b' with
      position := firstPos r }) := by
    unfold LazyStream.next
    rw [if_neg (by simp [LazyStream.mk'])]
    simp only [LazyStream.mk', e1]
    match r with
    | .error e => rfl
    | .ok none => rfl
    | .ok (some d) => simp [firstPos]
  have e2' : (LazyStream.mk' c).next = (r, { LazyStream.mk' c' with
      position := firstPos r }) := by
    unfold LazyStream.next
    rw [if_neg (by simp [LazyStream.mk'])]
    simp only [LazyStream.mk', e2]
    match r with
    | .error e => rfl
    | .ok none => rfl
    | .ok (some d) => simp [firstPos]
  have hrd : ∀ x : π, (LazyStream.mk' x).read (some n) =
      LazyStream.readLoop ((LazyStream.mk' x).size + 1) n [] (LazyStream.mk' x) := by
    intro x
    simp only [LazyStream.read]
    rw [if_neg (by omega)]; simp
  have hsz : ∀ x : π, (LazyStream.mk' x).size = Producer.size x := by
    intro x; simp [LazyStream.size, LazyStream.mk']
  rw [hrd, hrd, LazyStream.readLoop, LazyStream.readLoop, if_neg hn, if_neg hn, e1', e2']
  rcases r with e | _ | d
  · exact ⟨_, _, _, rfl, rfl, ⟨a1, rfl, rfl, rfl, rfl⟩, by simp⟩
  · exact ⟨_, _, _, rfl, rfl, ⟨a1, rfl, rfl, rfl, rfl⟩, fun _ _ => ⟨a4 _ rfl, rfl, rfl, rfl, rfl⟩⟩
  · simp only [firstPos]
    obtain ⟨m1, m2⟩ := a2.2 d rfl
    obtain ⟨m3, m4⟩ := a3.2 d rfl
    have hLS : LS B' { LazyStream.mk' b' with position := (d.length : Int) }
        { LazyStream.mk' c' with position := (d.length : Int) } := ⟨a4 _ rfl, rfl, rfl, rfl, rfl⟩
    have hmono : ∀ {s t}, LS B' s t → LS B s t := fun h => ⟨hmono _ _ h.prod, h.left, h.len, h.pos, h.hist⟩
    obtain ⟨r, s2, t2, e1, e2, c1, c2, c3, -⟩ := hLS.unget (d.drop n)
    rw [List.length_drop] at c2 c3
    have z1 : ∀ (x : π) (p : Int), LazyStream.size { LazyStream.mk' x with position := p } = Producer.size x := by
      intro x p; simp [LazyStream.size, LazyStream.mk']
    rw [z1] at c2 c3
    rw [e1, e2]
    match r with
    | .error e => exact ⟨_, _, _, rfl, rfl, hmono c1, by simp⟩
    | .ok () =>
      simp only
      obtain ⟨r, s3, t3, e1, e2, d1, -⟩ := c1.readLoop hB' (LazyStream.mk' b).size (LazyStream.mk' c).size
        (n - (d.take n).length) ([] ++ d.take n) (by rw [hsz]; omega) (by rw [hsz]; omega)
      exact ⟨_, _, _, e1, e2, hmono d1, fun _ _ => d1⟩

theorem BI.mono {N M : Nat} {p q : BoundaryIter τ} (h : BI R (N - 1) (M - 1) p q) : BI R N M p q :=
  ⟨h.stream, h.boundary, h.ne, h.rollback, h.done, Nat.le_trans h.left (Nat.sub_le _ _),
    Nat.le_trans h.right (Nat.sub_le _ _)⟩

/-- Reading from a fresh part makes the body stream shorter. -/
theorem BI.firstRead (hR : Sim R) {N M : Nat} {b c : BoundaryIter τ} (h : BI R N M b c) (hd : b.done = false)
    (hl : b.stream.leftover ≠ []) (n : Nat) (hn : n ≠ 0) :
    ∃ r s' t', (LazyStream.mk' b).read (some n) = (r, s') ∧ (LazyStream.mk' c).read (some n) = (r, t') ∧
      LS (BI R N M) s' t' ∧ ∀ d, r = .ok d → LS (BI R (N - 1) (M - 1)) s' t' := by
  obtain ⟨r, b', c', e1, e2, a1, a2, a3, a4⟩ := h.next hR
  refine firstRead_gen (BI.sim hR _ _) (fun _ _ => BI.mono) e1 e2 a1 a2 a3 ?_ n hn
  intro x hx
  obtain ⟨k1, k2⟩ := a4 hd hl x hx
  have := h.left
  have := h.right
  exact ⟨a1.stream, a1.boundary, a1.ne, a1.rollback, a1.done, by omega, by omega⟩

/-! ### Separators that are `unicode` objects -/

/-- As `BI`. -/
def TBI (R : τ → τ → Prop) (N M : Nat) (b c : TextBoundaryIter τ) : Prop := BI R N M b.iter c.iter

theorem TBI.next (hR : Sim R) {N M : Nat} {b c : TextBoundaryIter τ} (h : TBI R N M b c) :
    ∃ r b' c', b.next = (r, b') ∧ c.next = (r, c') ∧ TBI R N M b' c' ∧
      Dec r (Producer.size b) (Producer.size b') ∧ Dec r (Producer.size c) (Producer.size c') ∧
      (b.iter.done = false → b.iter.stream.leftover ≠ [] → ∀ x, r = .ok x →
        b'.iter.stream.size < b.iter.stream.size ∧ c'.iter.stream.size < c.iter.stream.size) := by
  obtain ⟨b⟩ := b
  obtain ⟨c⟩ := c
  have h' : BI R N M b c := h
  obtain ⟨r, b', c', e1, e2, a1, a2, a3, a4⟩ := h'.next hR
  unfold TextBoundaryIter.next
  simp only
  have hdone := h'.done
  cases hd : b.done with
  | true =>
    rw [hd] at hdone
    rw [if_pos rfl, ← hdone, if_pos rfl]
    exact ⟨_, _, _, rfl, rfl, h, ⟨Nat.le_refl _, by simp⟩, ⟨Nat.le_refl _, by simp⟩, by simp⟩
  | false =>
  rw [hd] at hdone
  rw [if_neg (by simp), ← hdone, if_neg (by simp)]
  obtain ⟨g, s1, t1, f1, f2, k1, k2, k3, k4⟩ := h'.stream.gather hR b.rollback (b.stream.size + 1) (c.stream.size + 1) [] false
    (by omega) (by omega)
  rw [← h'.rollback, f1, f2, e1, e2]
  have hl := h'.left
  have hr := h'.right
  have plain : ∃ r' b'' c'', ((r, (⟨b'⟩ : TextBoundaryIter τ)) = (r', b'')) ∧ ((r, (⟨c'⟩ : TextBoundaryIter τ)) = (r', c'')) ∧
      TBI R N M b'' c'' ∧ Dec r' (Producer.size (⟨b⟩ : TextBoundaryIter τ)) (Producer.size b'') ∧
      Dec r' (Producer.size (⟨c⟩ : TextBoundaryIter τ)) (Producer.size c'') ∧
      (True → b.stream.leftover ≠ [] → ∀ x, r' = .ok x →
        b''.iter.stream.size < b.stream.size ∧ c''.iter.stream.size < c.stream.size) :=
    ⟨r, ⟨b'⟩, ⟨c'⟩, rfl, rfl, a1, a2, a3, fun _ => a4 hd⟩
  rcases g with e | ⟨chunk, any, stopped⟩
  · simp only; exact plain
  · cases any with
    | false => simp only; exact plain
    | true =>
    simp only
    split
    · exact plain
    · have hb : ∀ (x : BoundaryIter τ) (s : LazyStream τ), x.done = false → s.size ≤ x.stream.size →
          Producer.size (⟨{ x with stream := s, done := stopped }⟩ : TextBoundaryIter τ) ≤
            Producer.size (⟨x⟩ : TextBoundaryIter τ) := by
        intro x s hx hs
        change (if stopped then 0 else 1 + s.size) ≤ (if x.done then 0 else 1 + x.stream.size)
        rw [hx]
        cases stopped <;> simp; omega
      exact ⟨_, _, _, rfl, rfl, ⟨k1, h'.boundary, h'.ne, rfl, rfl, by simp only; omega, by simp only; omega⟩,
        ⟨hb b s1 hd k2, by simp⟩, ⟨hb c t1 hdone.symm k3, by simp⟩, by simp⟩

theorem TBI.sim (hR : Sim R) (N M : Nat) : Sim (TBI R N M) where
  next p q h := by
    obtain ⟨r, b', c', e1, e2, a1, a2, a3, -⟩ := h.next hR
    exact ⟨r, b', c', e1, e2, a1, a2, a3⟩

theorem TBI.firstRead (hR : Sim R) {N M : Nat} {b c : TextBoundaryIter τ} (h : TBI R N M b c) (hd : b.iter.done = false)
    (hl : b.iter.stream.leftover ≠ []) (n : Nat) (hn : n ≠ 0) :
    ∃ r s' t', (LazyStream.mk' b).read (some n) = (r, s') ∧ (LazyStream.mk' c).read (some n) = (r, t') ∧
      LS (TBI R N M) s' t' ∧ ∀ d, r = .ok d → LS (TBI R (N - 1) (M - 1)) s' t' := by
  obtain ⟨r, b', c', e1, e2, a1, a2, a3, a4⟩ := h.next hR
  refine firstRead_gen (TBI.sim hR _ _) (fun _ _ => BI.mono) e1 e2 a1 a2 a3 ?_ n hn
  intro x hx
  obtain ⟨k1, k2⟩ := a4 hd hl x hx
  have := BI.left h
  have := BI.right h
  exact ⟨a1.stream, a1.boundary, a1.ne, a1.rollback, a1.done, by omega, by omega⟩

/-- The next part is the same for both kinds of separator. -/
theorem nextTextPart_eq (s : LazyStream τ) (sep : Bytes) : nextTextPart s sep =
    ((nextPart s sep).1.map (fun o => o.map fun p =>
      { producer := ⟨p.producer⟩, leftover := p.leftover, length := p.length, position := p.position, history := p.history }),
      (nextPart s sep).2) := by
  unfold nextTextPart nextPart
  rcases BoundaryIter.create s sep with ⟨e | b, s1⟩
  · cases e <;> rfl
  · rfl

/-- `parse_boundary_stream`, given what its first read does. -/
theorem parseBoundaryStream_sim {Q : τ → τ → Prop} (C : Codecs) (n : Nat) {s t s1 t1 : LazyStream τ} {r : Except Exc Bytes}
    (e1 : s.read (some n) = (r, s1)) (e2 : t.read (some n) = (r, t1)) (h : LS Q s1 t1) :
    ∃ x s' t', parseBoundaryStream C s n = (x, s') ∧ parseBoundaryStream C t n = (x, t') ∧ LS Q s' t' ∧
      (∀ y, x = .ok y → ∃ d, r = .ok d) := by
  unfold parseBoundaryStream
  rw [e1, e2]
  match r with
  | .error e => exact ⟨_, _, _, rfl, rfl, h, by simp⟩
  | .ok d =>
    simp only
    split
    · obtain ⟨r, s2, t2, e1, e2, c1, -⟩ := h.unget d
      rw [e1, e2]
      match r with
      | .error e => exact ⟨_, _, _, rfl, rfl, c1, by simp⟩
      | .ok () => exact ⟨_, _, _, rfl, rfl, c1, by simp⟩
    · rename_i i _
      obtain ⟨r, s2, t2, e1, e2, c1, -⟩ := h.unget (d.drop (i + 4))
      rw [e1, e2]
      match r with
      | .error e => exact ⟨_, _, _, rfl, rfl, c1, by simp⟩
      | .ok () =>
        simp only
        split
        · exact ⟨_, _, _, rfl, rfl, c1, by simp⟩
        · split
          · obtain ⟨r, s3, t3, e1, e2, d1, -⟩ := c1.unget d
            rw [e1, e2]
            match r with
            | .error e => exact ⟨_, _, _, rfl, rfl, d1, by simp⟩
            | .ok () => exact ⟨_, _, _, rfl, rfl, d1, by simp⟩
          · exact ⟨_, _, _, rfl, rfl, c1, by simp⟩

/-! ### Fields and files -/

theorem LS.fillBase64 (hR : Sim R) : ∀ (f : Nat) (d : Bytes) {s t : LazyStream τ}, LS R s t →
    ∃ r s' t', Verif.fillBase64 f d s = (r, s') ∧ Verif.fillBase64 f d t = (r, t') ∧ LS R s' t' ∧
      s'.size ≤ s.size ∧ t'.size ≤ t.size := by
  intro f
  induction f with
  | zero =>
    intro d s t h
    unfold Verif.fillBase64
    split <;> exact ⟨_, _, _, rfl, rfl, h, by omega, by omega⟩
  | succ f ih =>
    intro d s t h
    unfold Verif.fillBase64
    split
    · exact ⟨_, _, _, rfl, rfl, h, by omega, by omega⟩
    obtain ⟨r, s1, t1, e1, e2, a1, a2, a3, -⟩ := h.read hR (some (4 - d.length % 4 : Nat))
    rw [e1, e2]
    match r with
    | .error e => exact ⟨_, _, _, rfl, rfl, a1, a2, a3⟩
    | .ok over =>
      simp only
      obtain ⟨r, s3, t3, e1, e2, d1, d2, d3⟩ := ih (d ++ Py.removeSpaces over) a1
      exact ⟨_, _, _, e1, e2, d1, by omega, by omega⟩

theorem LS.fileChunk (hR : Sim R) (f : Nat) (b64 : Bool) (d : Bytes) {s t : LazyStream τ} (h : LS R s t) :
    ∃ r s' t', Verif.fileChunk f b64 d s = (r, s') ∧ Verif.fileChunk f b64 d t = (r, t') ∧ LS R s' t' ∧
      s'.size ≤ s.size ∧ t'.size ≤ t.size := by
  unfold Verif.fileChunk
  split
  · obtain ⟨r, s1, t1, e1, e2, a1, a2, a3⟩ := h.fillBase64 hR f (Py.removeSpaces d)
    rw [e1, e2]
    match r with
    | .error e => exact ⟨_, _, _, rfl, rfl, a1, a2, a3⟩
    | .ok x =>
      simp only
      split <;> exact ⟨_, _, _, rfl, rfl, a1, a2, a3⟩
  · exact ⟨_, _, _, rfl, rfl, h, by omega, by omega⟩

variable {ρ σ F : Type}

theorem LS.fileLoop (hR : Sim R) (H : HandlerOps ρ σ F) (f64 : Nat) (b64 : Bool) : ∀ (f g : Nat) (cs : List Nat) (w : σ)
    {s t : LazyStream τ}, LS R s t → s.size < f → t.size < g →
    ∃ r s' t' cs' w', Verif.fileLoop H f64 b64 f s cs w = (r, s', cs', w') ∧
      Verif.fileLoop H f64 b64 g t cs w = (r, t', cs', w') ∧ LS R s' t' := by
  intro f
  induction f with
  | zero => intro g cs w s t _ h; omega
  | succ f ih =>
    intro g cs w s t h hf hg
    match g, hg with
    | 0, hg => omega
    | g + 1, hg =>
    unfold Verif.fileLoop
    obtain ⟨r, s1, t1, e1, e2, a1, a2, a3, -⟩ := h.next hR
    rw [e1, e2]
    match r with
    | .error e => exact ⟨_, _, _, _, _, rfl, rfl, a1⟩
    | .ok none => exact ⟨_, _, _, _, _, rfl, rfl, a1⟩
    | .ok (some c) =>
      simp only
      obtain ⟨b2, b2'⟩ := a2.2 c rfl
      obtain ⟨b3, b3'⟩ := a3.2 c rfl
      obtain ⟨r, s2, t2, e1, e2, c1, c2, c3⟩ := a1.fileChunk hR f64 b64 c
      rw [e1, e2]
      match r with
      | .error e => exact ⟨_, _, _, _, _, rfl, rfl, c1⟩
      | .ok d =>
        simp only
        rcases feedChunk H (List.range H.count) d cs w with ⟨_ | _, cs1, w1⟩
        · exact ⟨_, _, _, _, _, rfl, rfl, c1⟩
        · exact ih g cs1 w1 c1 (by omega) (by omega)

theorem LS.receiveFile (hR : Sim R) (H : HandlerOps ρ σ F) (f64 : Nat) (args : NewFileArgs) (w : σ)
    {s t : LazyStream τ} (h : LS R s t) :
    ∃ r s' t' cs' w', Verif.receiveFile H f64 args s w = (r, s', cs', w') ∧
      Verif.receiveFile H f64 args t w = (r, t', cs', w') ∧ LS R s' t' := by
  unfold Verif.receiveFile
  simp only
  rcases newFiles H args (List.range H.count) w with ⟨_ | _, w1⟩
  · exact ⟨_, _, _, _, _, rfl, rfl, h⟩
  · exact h.fileLoop hR H f64 _ _ _ _ _ (by omega) (by omega)

theorem LS.handleField (hR : Sim R) (C : Codecs) (S : Settings) (name : Bytes) (te : Option Bytes) (md : MetaData)
    (st : PState σ F) {s t : LazyStream τ} (h : LS R s t) :
    ∃ r s' t' st', Verif.handleField C S name te md s st = (r, s', st') ∧
      Verif.handleField C S name te md t st = (r, t', st') ∧ LS R s' t' := by
  unfold Verif.handleField
  simp only
  split
  · exact ⟨_, _, _, _, rfl, rfl, h⟩
  · obtain ⟨r, s1, t1, e1, e2, a1, -⟩ := h.read hR (S.dataMaxMemory.map (· - (st.numBytes : Int)))
    rw [e1, e2]
    match r with
    | .error e => exact ⟨_, _, _, _, rfl, rfl, a1⟩
    | .ok raw => exact ⟨_, _, _, _, rfl, rfl, a1⟩

theorem LS.handleFile (hR : Sim R) (H : HandlerOps ρ σ F) (f64 : Nat) (name : Bytes) (te : Option Bytes)
    (md : MetaData) (disp : Dict Bytes PyStr) (st : PState σ F) {s t : LazyStream τ} (h : LS R s t) :
    ∃ r s' t' st', Verif.handleFile H f64 name te md disp s st = (r, s', st') ∧
      Verif.handleFile H f64 name te md disp t st = (r, t', st') ∧ LS R s' t' := by
  unfold Verif.handleFile
  cases dispositionFileName disp with
  | error e => exact ⟨_, _, _, _, rfl, rfl, h⟩
  | ok fileName =>
    simp only
    split
    · exact ⟨_, _, _, _, rfl, rfl, h⟩
    obtain ⟨r, s1, t1, cs, w, e1, e2, a1⟩ := h.receiveFile hR H f64 (fileArgs name fileName te md) st.world
    rw [e1, e2]
    match r with
    | .ok () => exact ⟨_, _, _, _, rfl, rfl, a1⟩
    | .error e =>
      by_cases he : e = .skipFile
      · subst he
        simp only
        rcases closeFiles H (List.range H.count) w with ⟨_ | _, w1⟩
        · exact ⟨_, _, _, _, rfl, rfl, a1⟩
        · simp only
          obtain ⟨r, s2, t2, e1, e2, c1, -⟩ := a1.exhaust hR
          rw [e1, e2]
          match r with
          | .ok () => exact ⟨_, _, _, _, rfl, rfl, c1⟩
          | .error e => exact ⟨_, _, _, _, rfl, rfl, c1⟩
      · refine ⟨.error e, s1, t1, { st with world := w, counters := cs }, ?_, ?_, a1⟩ <;>
        · split
          · rename_i h; cases h
          · rename_i h; cases h; contradiction
          · rename_i h; cases h; rfl

theorem LS.handlePart (hR : Sim R) (C : Codecs) (S : Settings) (H : HandlerOps ρ σ F) (f64 : Nat) (ty : ItemType)
    (md : MetaData) (st : PState σ F) {s t : LazyStream τ} (h : LS R s t) :
    ∃ r s' t' st', Verif.handlePart C S H f64 ty md s st = (r, s', st') ∧
      Verif.handlePart C S H f64 ty md t st = (r, t', st') ∧ LS R s' t' := by
  unfold Verif.handlePart
  rcases completeOld H st with ⟨_ | _, st1⟩
  · exact ⟨_, _, _, _, rfl, rfl, h⟩
  simp only
  rcases partName md with _ | ⟨disp, nm⟩
  · exact ⟨_, _, _, _, rfl, rfl, h⟩
  simp only
  cases forceText nm.strip with
  | error e => exact ⟨_, _, _, _, rfl, rfl, h⟩
  | ok name =>
    cases ty with
    | field => exact h.handleField hR C S name (transferEnc md) md st1
    | file => exact h.handleFile hR H f64 name (transferEnc md) md disp st1
    | raw => exact ⟨_, _, _, _, rfl, rfl, h⟩

end

section
variable {ρ σ F : Type} [Producer ρ] {R : ChunkIter ρ → ChunkIter ρ → Prop}

theorem LS.partsLoop (hR : Sim R) (C : Codecs) (S : Settings) (H : HandlerOps ρ σ F) (f64 : Nat) {sep : Bytes}
    (hsep : sep ≠ []) : ∀ (f g : Nat) (st : PState σ F) {s t : LazyStream (ChunkIter ρ)}, LS R s t → s.size < f → t.size < g →
    ∃ r s' t' st', Verif.partsLoop C S H f64 sep f s st = (r, s', st') ∧
      Verif.partsLoop C S H f64 sep g t st = (r, t', st') ∧ LS R s' t' := by
  intro f
  induction f with
  | zero => intro g st s t _ h; omega
  | succ f ih =>
    intro g st s t h hf hg
    match g, hg with
    | 0, hg => omega
    | g + 1, hg =>
    unfold Verif.partsLoop
    rcases h.nextPart hR hsep with ⟨r, s1, t1, e1, e2, a1, a2⟩ | ⟨b, c, s1, t1, e1, e2, a1, a2, a3⟩
    · rw [e1, e2]
      match r, a2 with
      | .error e, _ => exact ⟨_, _, _, _, rfl, rfl, a1⟩
      | .ok none, _ => exact ⟨_, _, _, _, rfl, rfl, a1⟩
      | .ok (some x), a2 => exact absurd rfl (a2 x)
    · rw [e1, e2]
      simp only
      have hb1 := List.length_pos_iff.2 a3
      have hN : 1 ≤ s.size := by
        have := a1.left; simp only [LazyStream.size] at this ⊢; omega
      have hM : 1 ≤ t.size := by
        have := a1.right
        have hl := congrArg List.length a1.stream.left
        simp only [LazyStream.size] at this ⊢; omega
      obtain ⟨r, s2, t2, e1, e2, b1, b2⟩ := a1.firstRead hR a2 a3 1024 (by decide)
      obtain ⟨x, s3, t3, e3, e4, c1, c2⟩ := parseBoundaryStream_sim C 1024 e1 e2 b1
      rw [e3, e4]
      match x, c2, e3, e4 with
      | .error e, _, _, _ => exact ⟨_, _, _, _, rfl, rfl, c1.prod.stream⟩
      | .ok (ty, md), c2, e3, e4 =>
        simp only
        obtain ⟨d, rfl⟩ := c2 _ rfl
        obtain ⟨x, s4, t4, e5, e6, d1, -⟩ := parseBoundaryStream_sim C 1024 e1 e2 (b2 d rfl)
        rw [e3] at e5
        rw [e4] at e6
        simp only [Prod.mk.injEq] at e5 e6
        obtain ⟨-, rfl⟩ := e5
        obtain ⟨-, rfl⟩ := e6
        obtain ⟨r, s5, t5, st', e1, e2, f1⟩ := d1.handlePart (BI.sim hR _ _) C S H f64 ty md st
        rw [e1, e2]
        match r with
        | .error e => exact ⟨_, _, _, _, rfl, rfl, f1.prod.stream⟩
        | .ok () =>
          have := f1.prod.left
          have := f1.prod.right
          exact ih g st' f1.prod.stream (by omega) (by omega)

/-- As `LS.partsLoop`, for a `unicode` separator. -/
theorem LS.textPartsLoop (hR : Sim R) (C : Codecs) (S : Settings) (H : HandlerOps ρ σ F) (f64 : Nat) {sep : Bytes}
    (hsep : sep ≠ []) : ∀ (f g : Nat) (st : PState σ F) {s t : LazyStream (ChunkIter ρ)}, LS R s t → s.size < f → t.size < g →
    ∃ r s' t' st', Verif.textPartsLoop C S H f64 sep f s st = (r, s', st') ∧
      Verif.textPartsLoop C S H f64 sep g t st = (r, t', st') ∧ LS R s' t' := by
  intro f
  induction f with
  | zero => intro g st s t _ h; omega
  | succ f ih =>
    intro g st s t h hf hg
    match g, hg with
    | 0, hg => omega
    | g + 1, hg =>
    unfold Verif.textPartsLoop
    rw [nextTextPart_eq, nextTextPart_eq]
    rcases h.nextPart hR hsep with ⟨r, s1, t1, e1, e2, a1, a2⟩ | ⟨b, c, s1, t1, e1, e2, a1, a2, a3⟩
    · rw [e1, e2]
      match r, a2 with
      | .error e, _ => exact ⟨_, _, _, _, rfl, rfl, a1⟩
      | .ok none, _ => exact ⟨_, _, _, _, rfl, rfl, a1⟩
      | .ok (some x), a2 => exact absurd rfl (a2 x)
    · rw [e1, e2]
      simp only [Except.map, Option.map]
      have hb1 := List.length_pos_iff.2 a3
      have hN : 1 ≤ s.size := by
        have := a1.left; simp only [LazyStream.size] at this ⊢; omega
      have hM : 1 ≤ t.size := by
        have := a1.right
        have hl := congrArg List.length a1.stream.left
        simp only [LazyStream.size] at this ⊢; omega
      obtain ⟨r, s2, t2, e1, e2, b1, b2⟩ := TBI.firstRead hR (b := ⟨b⟩) (c := ⟨c⟩) a1 a2 a3 1024 (by decide)
      simp only [LazyStream.mk'] at e1 e2 ⊢
      obtain ⟨x, s3, t3, e3, e4, c1, c2⟩ := parseBoundaryStream_sim C 1024 e1 e2 b1
      rw [e3, e4]
      match x, c2, e3, e4 with
      | .error e, _, _, _ => exact ⟨_, _, _, _, rfl, rfl, c1.prod.stream⟩
      | .ok (ty, md), c2, e3, e4 =>
        simp only
        obtain ⟨d, rfl⟩ := c2 _ rfl
        obtain ⟨x, s4, t4, e5, e6, d1, -⟩ := parseBoundaryStream_sim C 1024 e1 e2 (b2 d rfl)
        rw [e3] at e5
        rw [e4] at e6
        simp only [Prod.mk.injEq] at e5 e6
        obtain ⟨-, rfl⟩ := e5
        obtain ⟨-, rfl⟩ := e6
        obtain ⟨r, s5, t5, st', e1, e2, f1⟩ := d1.handlePart (TBI.sim hR _ _) C S H f64 ty md st
        rw [e1, e2]
        match r with
        | .error e => exact ⟨_, _, _, _, rfl, rfl, f1.prod.stream⟩
        | .ok () =>
          have := BI.left f1.prod
          have := BI.right f1.prod
          exact ih g st' f1.prod.stream (by omega) (by omega)

end
end Verif
