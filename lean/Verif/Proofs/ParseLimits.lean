import Verif.Proofs.ParseErr
import Verif.Spec.Multipart
/-! The limits of multipart parsing. -/

namespace Verif
open Spec

theorem items_append {α : Type} (f : Bytes × α → Nat) (k : Bytes) (v : α) : ∀ (d : MVD α),
    ((items (d.append k v)).map f).sum = ((items d).map f).sum + f (k, v) := by
  intro d
  unfold MVD.append
  induction d with
  | nil => simp [items, Dict.set, Dict.get?]
  | cons p t ih =>
    obtain ⟨a, b⟩ := p
    unfold Dict.set Dict.get?
    by_cases h : a = k
    · subst h; simp [items]; omega
    · simp only [h, if_false]
      simp only [items] at ih ⊢
      simp only [List.flatMap_cons, List.map_append, List.sum_append, ih]
      omega

theorem items_append_length {α : Type} (k : Bytes) (v : α) (d : MVD α) :
    (items (d.append k v)).length = (items d).length + 1 := by
  have := items_append (fun _ => 1) k v d
  simpa using this

/-- Setting an empty list takes nothing in. -/
theorem items_clear {α : Type} (f : Bytes × α → Nat) (k : Bytes) : ∀ (d : MVD α),
    ((items (Dict.set d k [])).map f).sum ≤ ((items d).map f).sum := by
  intro d
  induction d with
  | nil => simp [items, Dict.set]
  | cons p t ih =>
    obtain ⟨a, b⟩ := p
    unfold Dict.set
    by_cases h : a = k
    · subst h; simp [items]
    · simp only [h, if_false]
      simp only [items] at ih ⊢
      simp only [List.flatMap_cons, List.map_append, List.sum_append]
      omega

theorem items_clear_length {α : Type} (k : Bytes) (d : MVD α) : (items (Dict.set d k [])).length ≤ (items d).length := by
  have := items_clear (fun _ => 1) k d
  simpa using this

theorem mem_items_clear {α : Type} (k : Bytes) : ∀ (d : MVD α) (p : Bytes × α), p ∈ items (Dict.set d k []) → p ∈ items d := by
  intro d p
  induction d with
  | nil => simp [items, Dict.set]
  | cons q t ih =>
    obtain ⟨a, b⟩ := q
    unfold Dict.set
    by_cases h : a = k
    · subst h
      simp only [if_true, items, List.flatMap_cons, List.map_nil, List.nil_append, List.mem_append]
      exact .inr
    · simp only [h, if_false]
      simp only [items, List.flatMap_cons, List.mem_append] at ih ⊢
      rintro (hp | hp)
      · exact .inl hp
      · exact .inr (ih hp)

theorem Codecs.Settles.ofId {C : Codecs} {S : Settings} (h : ∀ b k, C.strEncode S.defaultCharset b = .ok k → k = b) :
    C.Settles S := fun b k hk => by
  have := h _ _ hk
  subst this
  exact hk

section
variable {ρ σ F : Type} {H : HandlerOps ρ σ F}

/-- The counters account for everything stored. -/
structure Counted (C : Codecs) (S : Settings) (st : PState σ F) : Prop where
  within : Within S st
  keys : (items st.post).length ≤ st.numKeys
  exact : C.Settles S → (items st.post).length = st.numKeys
  bytes : (∀ b k, C.strEncode S.defaultCharset b = .ok k → k = b) →
    ((items st.post).map fieldSize).sum ≤ st.numBytes

theorem PartRun.counted {C : Codecs} {S : Settings} {fuel64 : Nat} {t md content}
    {st st' : PState σ F} {b : Bool} {r}
    (h : PartRun C S H fuel64 t md content st b r st') (hc : Counted C S st) :
    (r = .ok () ∧ Counted C S st') ∨ ((∃ e, r = .error e) ∧ st'.post = st.post) := by
  have key : ∀ st1, (∃ r1, completeOld H st = (r1, st1)) → Counted C S st1 ∧ st1.post = st.post := by
    rintro st1 ⟨r1, h1⟩
    obtain ⟨a, b, c⟩ := completeOld_num h1
    exact ⟨⟨⟨by rw [a]; exact hc.within.1, by rw [b]; exact hc.within.2⟩,
      by rw [c, b]; exact hc.keys, by rw [c, b]; exact hc.exact, by rw [c, a]; exact hc.bytes⟩, c⟩
  cases h with
  | completeErr h1 => exact .inr ⟨⟨_, rfl⟩, (key _ ⟨_, h1⟩).2⟩
  | nameErr h1 => exact .inr ⟨⟨_, rfl⟩, (key _ ⟨_, h1⟩).2⟩
  | tooMany h1 => exact .inr ⟨⟨_, rfl⟩, (key _ ⟨_, h1⟩).2⟩
  | negative h1 => exact .inr ⟨⟨_, rfl⟩, (key _ ⟨_, h1⟩).2⟩
  | fileNameErr h1 => exact .inr ⟨⟨_, rfl⟩, (key _ ⟨_, h1⟩).2⟩
  | fileErr h1 => exact .inr ⟨⟨_, rfl⟩, (key _ ⟨_, h1⟩).2⟩
  | skip h1 => exact .inl ⟨rfl, (key _ ⟨_, h1⟩).1⟩
  | noFileName h1 => exact .inl ⟨rfl, (key _ ⟨_, h1⟩).1⟩
  | file h1 =>
    obtain ⟨⟨⟨a, b⟩, c, x, d⟩, _⟩ := key _ ⟨_, h1⟩
    exact .inl ⟨rfl, ⟨a, b⟩, c, x, d⟩
  | fileSkip h1 =>
    obtain ⟨⟨⟨a, b⟩, c, c', d⟩, e⟩ := key _ ⟨_, h1⟩
    rcases r with x | x
    · exact .inr ⟨⟨_, rfl⟩, e⟩
    · exact .inl ⟨rfl, ⟨a, b⟩, c, c', d⟩
  | @field st1 _ _ name raw r st2 h1 _ _ _ hk _ _ hst =>
    obtain ⟨⟨⟨a, b⟩, c, c', d⟩, e⟩ := key _ ⟨_, h1⟩
    rcases r with x | x
    · refine .inr ⟨⟨_, rfl⟩, ?_⟩
      rw [← e]
      unfold storeField at hst
      simp only at hst
      split at hst
      · simp only [Prod.mk.injEq] at hst; rw [← hst.2]
      · split at hst
        · simp only [Prod.mk.injEq] at hst; rw [← hst.2]
        · split at hst
          · simp only [Prod.mk.injEq] at hst; rw [← hst.2]
          · simp at hst
    · obtain ⟨ky, item, post, g1, g2, _, _, _, _, _, hb, hap, _, rfl⟩ := storeField_state hst
      refine .inl ⟨rfl, ⟨hb, hk⟩, ?_, ?_, ?_⟩
      · rcases hap with rfl | ⟨_, k', _, _, rfl⟩
        · simp only [items_append_length]; omega
        · have := items_clear_length k' st1.post
          simp only at this ⊢; omega
      · intro hC
        have c' := c' hC
        have := hap.settled hC g1
        subst this
        simp only [items_append_length]; omega
      · intro hcs
        have hp := hap.settled (.ofId hcs) g1
        subst hp
        have := hcs _ _ g1
        subst this
        have d := d hcs
        simp only [items_append]
        simp only [fieldSize] at d ⊢; omega

theorem Parses.counted {C : Codecs} {S : Settings} {fuel64 : Nat} {sep D D' : Bytes}
    {st st' : PState σ F} {r}
    (h : Parses C S H fuel64 sep D st r D' st') (hc : Counted C S st) :
    ∃ st1 : PState σ F, Counted C S st1 ∧ st'.post = st1.post := by
  induction h with
  | done => exact ⟨_, hc, rfl⟩
  | headErr => exact ⟨_, hc, rfl⟩
  | partErr _ _ hrun _ =>
    rcases hrun.counted hc with ⟨h, _⟩ | ⟨_, h⟩
    · simp at h
    · exact ⟨_, hc, h⟩
  | part _ _ hrun _ _ _ _ ih =>
    rcases hrun.counted hc with ⟨_, h⟩ | ⟨⟨e, h⟩, _⟩
    · exact ih h
    · simp at h

end

section
variable {ρ σ F : Type} [Producer ρ] {L : Lawful ρ}

theorem rawInputLoop_leaves {H : HandlerOps ρ σ F} (hl : LeavesParsing L H) (a : RawArgs) :
    ∀ (is : List Nat) (s : LazyStream ρ) (w : σ), SOK L s →
    (∃ e s' w', rawInputLoop H a is s w = (.error e, s', w') ∧
      ∃ i s w, (H.rawInput i a s w).1 = .error e) ∨
    (∃ s' w', rawInputLoop H a is s w = (.ok none, s', w') ∧ SOK L s' ∧ L.sc s' <:+ L.sc s) := by
  intro is
  induction is with
  | nil => intro s w h; exact .inr ⟨s, w, rfl, h, List.suffix_refl _⟩
  | cons i is ih =>
    intro s w h
    unfold rawInputLoop
    have h1 := hl.none i a s w
    have h2 := hl.reads i a s w h
    rcases hr : H.rawInput i a s w with ⟨(e | (_ | r)), s', w'⟩
    · exact .inl ⟨_, _, _, rfl, i, s, w, by rw [hr]⟩
    · rw [hr] at h2
      rcases ih s' w' h2.1 with h | ⟨s2, w2, h3, h4, h5⟩
      · exact .inl h
      · exact .inr ⟨s2, w2, h3, h4, h5.trans h2.2⟩
    · rw [hr] at h1; exact absurd rfl (h1 r)

/-- All outcomes of parsing when the handlers leave the parsing to the parser. -/
theorem parse_elim (C : Codecs) (S : Settings) (H : HandlerOps ρ σ F) (fuel64 : Nat) (m : MultiPart)
    (hc : 1 ≤ m.chunkSize) (hl : LeavesParsing L H) (input : LazyStream ρ) (w : σ) (hi : SOK L input) :
    (∃ e s' w', m.parse C S H fuel64 input w = (.error e, s', w') ∧
      (emptyQueryDict C S = .error e ∨ ∃ i a s w, (H.rawInput i a s w).1 = .error e)) ∨
    (m.contentLength = 0 ∧ emptyQueryDict C S = .ok () ∧
      m.parse C S H fuel64 input w = (.ok ([], []), input, w)) ∨
    (m.contentLength ≠ 0 ∧ emptyQueryDict C S = .ok () ∧ ∃ input1 w1 r D' st' s' R w',
      rawInputLoop H { contentLength := m.contentLength, boundary := m.boundary, settings := S }
        (List.range H.count) input w = (.ok none, input1, w1) ∧ SOK L input1 ∧ L.sc input1 <:+ L.sc input ∧
      m.parse C S H fuel64 input w = (R, s', w') ∧
      Parses C S H fuel64 (b!"--" ++ m.boundary) (L.sc input1) (PState.start H w1) r D' st' ∧
      endParse H r st' = (R, w') ∧ (r = .ok () → D' = [] ∧ L.sc s' = [])) := by
  by_cases h0 : m.contentLength = 0
  · cases hq : emptyQueryDict C S with
    | error e =>
      left; exact ⟨e, input, w, by simp [MultiPart.parse, h0, hq], .inl rfl⟩
    | ok u => right; left; exact ⟨h0, rfl, by simp [MultiPart.parse, h0, hq]⟩
  · rcases rawInputLoop_leaves hl { contentLength := m.contentLength, boundary := m.boundary, settings := S }
      (List.range H.count) input w hi with ⟨e, s', w', a1, i, s, w2, a2⟩ | ⟨input1, w1, a1, a2, a3⟩
    · left; exact ⟨e, s', w', by simp [MultiPart.parse, h0, a1], .inr ⟨i, _, s, w2, a2⟩⟩
    · rcases parse_spec C S H fuel64 m hc h0 input input1 w w1 a1 a2 with
        ⟨e, b1, b2⟩ | ⟨b0, r, D', st', s', R, w', b1, b2, b3, b4⟩
      · left; exact ⟨e, _, _, b2, .inl b1⟩
      · right; right
        exact ⟨h0, b0, input1, w1, r, D', st', s', R, w', a1, a2, a3, b1, b2, b3, fun h => ⟨(b4 h).1, (b4 h).2.1⟩⟩

end
end Verif

/-! ### The field limit cuts off exactly the bodies with too many fields -/

namespace Verif
open Spec

section
variable {ρ σ F τ : Type} [Producer τ]

theorem storeField_numKeys (C : Codecs) (S : Settings) (name te md raw) (st : PState σ F) :
    (storeField C S name te md raw st).2.numKeys = st.numKeys := by
  unfold storeField
  simp only
  split
  · rfl
  · split
    · rfl
    · split <;> rfl

theorem handlePart_limit (C : Codecs) (S : Settings) (H : HandlerOps ρ σ F) (fuel64 : Nat) (n : Int)
    (t : ItemType) (md : MetaData) (s : LazyStream τ) (st : PState σ F)
    (h : (st.numKeys : Int) ≤ n) {r s' st'}
    (h0 : handlePart C { S with maxFields := none } H fuel64 t md s st = (r, s', st')) :
    ((st'.numKeys : Int) ≤ n ∧
      handlePart C { S with maxFields := some n } H fuel64 t md s st = (r, s', st')) ∨
    (n < st'.numKeys ∧ ∃ s'' st'', handlePart C { S with maxFields := some n } H fuel64 t md s st =
      (.error .tooManyFieldsSent, s'', st'')) := by
  unfold handlePart at h0 ⊢
  rcases hc : completeOld H st with ⟨(e | _), st1⟩
  · rw [hc] at h0
    simp only [Prod.mk.injEq] at h0
    obtain ⟨rfl, rfl, rfl⟩ := h0
    left; exact ⟨by rw [(completeOld_num hc).2.1]; exact h, rfl⟩
  rw [hc] at h0
  have hk := (completeOld_num hc).2.1
  simp only at h0 ⊢
  cases hn : partName md with
  | none =>
    rw [hn] at h0
    simp only [Prod.mk.injEq] at h0
    obtain ⟨rfl, rfl, rfl⟩ := h0
    left; exact ⟨by rw [hk]; exact h, rfl⟩
  | some dn =>
    obtain ⟨d, nm⟩ := dn
    rw [hn] at h0
    simp only at h0 ⊢
    cases hf : forceText nm.strip with
    | error e =>
      rw [hf] at h0
      simp only [Prod.mk.injEq] at h0
      obtain ⟨rfl, rfl, rfl⟩ := h0
      left; exact ⟨by rw [hk]; exact h, rfl⟩
    | ok name =>
      rw [hf] at h0
      simp only at h0 ⊢
      cases t with
      | raw =>
        simp only [Prod.mk.injEq] at h0
        obtain ⟨rfl, rfl, rfl⟩ := h0
        left; exact ⟨by rw [hk]; exact h, rfl⟩
      | file =>
        simp only at h0 ⊢
        left; refine ⟨?_, h0⟩
        have : st'.numKeys = st1.numKeys := by
          unfold handleFile at h0
          split at h0
          · simp only [Prod.mk.injEq] at h0; rw [← h0.2.2]
          · split at h0
            · simp only [Prod.mk.injEq] at h0; rw [← h0.2.2]
            · split at h0
              · simp only [Prod.mk.injEq] at h0; rw [← h0.2.2]
              · split at h0
                · simp only [Prod.mk.injEq] at h0; rw [← h0.2.2]
                · split at h0
                  · simp only [Prod.mk.injEq] at h0; rw [← h0.2.2]
                  · simp only [Prod.mk.injEq] at h0; rw [← h0.2.2]
              · simp only [Prod.mk.injEq] at h0; rw [← h0.2.2]
        rw [this, hk]; exact h
      | field =>
        simp only [handleField, Option.any_none, Option.any_some, Bool.false_eq_true, if_false] at h0 ⊢
        have hk' : st'.numKeys = st.numKeys + 1 := by
          split at h0
          · simp only [Prod.mk.injEq] at h0; rw [← h0.2.2]; simp [hk]
          · simp only [Prod.mk.injEq] at h0
            rw [← h0.2.2, storeField_numKeys]; simp [hk]
        by_cases hlt : n < ((st1.numKeys + 1 : Nat) : Int)
        · right
          refine ⟨by rw [hk', ← hk]; exact hlt, ?_⟩
          rw [if_pos (by simpa using hlt)]
          exact ⟨_, _, rfl⟩
        · left
          refine ⟨by rw [hk', ← hk]; omega, ?_⟩
          rw [if_neg (by simpa using hlt)]
          exact h0

end

section
variable {ρ σ F : Type} [Producer ρ]

omit [Producer ρ] in
theorem handlePart_numKeys_mono {τ : Type} [Producer τ] {C : Codecs} {S : Settings} {H : HandlerOps ρ σ F}
    {fuel64 : Nat} {t : ItemType} {md : MetaData} {s : LazyStream τ} {st : PState σ F} {r s' st'}
    (h0 : handlePart C { S with maxFields := none } H fuel64 t md s st = (r, s', st')) :
    st.numKeys ≤ st'.numKeys := by
  by_contra hlt
  unfold handlePart at h0
  rcases hc : completeOld H st with ⟨(e | _), st1⟩
  · rw [hc] at h0
    simp only [Prod.mk.injEq] at h0
    rw [← h0.2.2, (completeOld_num hc).2.1] at hlt; omega
  rw [hc] at h0
  have hk := (completeOld_num hc).2.1
  simp only at h0
  split at h0
  · simp only [Prod.mk.injEq] at h0; rw [← h0.2.2] at hlt; omega
  · split at h0
    · simp only [Prod.mk.injEq] at h0; rw [← h0.2.2] at hlt; omega
    · split at h0
      · simp only [handleField, Option.any_none, Bool.false_eq_true, if_false] at h0
        split at h0
        · simp only [Prod.mk.injEq] at h0; rw [← h0.2.2] at hlt; simp at hlt; omega
        · simp only [Prod.mk.injEq] at h0
          rw [← h0.2.2, storeField_numKeys] at hlt; simp at hlt; omega
      · unfold handleFile at h0
        split at h0
        · simp only [Prod.mk.injEq] at h0; rw [← h0.2.2] at hlt; omega
        · split at h0
          · simp only [Prod.mk.injEq] at h0; rw [← h0.2.2] at hlt; omega
          · split at h0
            · simp only [Prod.mk.injEq] at h0; rw [← h0.2.2] at hlt; simp at hlt; omega
            · split at h0
              · simp only [Prod.mk.injEq] at h0; rw [← h0.2.2] at hlt; simp at hlt; omega
              · split at h0
                · simp only [Prod.mk.injEq] at h0; rw [← h0.2.2] at hlt; simp at hlt; omega
                · simp only [Prod.mk.injEq] at h0; rw [← h0.2.2] at hlt; simp at hlt; omega
            · simp only [Prod.mk.injEq] at h0; rw [← h0.2.2] at hlt; simp at hlt; omega
      · simp only [Prod.mk.injEq] at h0; rw [← h0.2.2] at hlt; omega

theorem partsLoop_numKeys_mono {C : Codecs} {S : Settings} {H : HandlerOps ρ σ F} {fuel64 : Nat}
    {sep : Bytes} : ∀ (fuel : Nat) (s : LazyStream (ChunkIter ρ)) (st : PState σ F) {r s' st'},
    partsLoop C { S with maxFields := none } H fuel64 sep fuel s st = (r, s', st') →
    st.numKeys ≤ st'.numKeys := by
  intro fuel
  induction fuel with
  | zero => intro s st r s' st' h; simp only [partsLoop, Prod.mk.injEq] at h; rw [← h.2.2]
  | succ fuel ih =>
    intro s st r s' st' h
    unfold partsLoop at h
    split at h
    · simp only [Prod.mk.injEq] at h; rw [← h.2.2]
    · simp only [Prod.mk.injEq] at h; rw [← h.2.2]
    · split at h
      · simp only [Prod.mk.injEq] at h; rw [← h.2.2]
      · split at h
        · rename_i hp
          simp only [Prod.mk.injEq] at h
          rw [← h.2.2]; exact handlePart_numKeys_mono hp
        · rename_i hp
          exact (handlePart_numKeys_mono hp).trans (ih _ _ h)

theorem partsLoop_limit (C : Codecs) (S : Settings) (H : HandlerOps ρ σ F) (fuel64 : Nat) (n : Int)
    (sep : Bytes) : ∀ (fuel : Nat) (s : LazyStream (ChunkIter ρ)) (st : PState σ F),
    (st.numKeys : Int) ≤ n → ∀ {r s' st'},
    partsLoop C { S with maxFields := none } H fuel64 sep fuel s st = (r, s', st') →
    ((st'.numKeys : Int) ≤ n ∧
      partsLoop C { S with maxFields := some n } H fuel64 sep fuel s st = (r, s', st')) ∨
    (n < st'.numKeys ∧ ∃ s'' st'', partsLoop C { S with maxFields := some n } H fuel64 sep fuel s st =
      (.error .tooManyFieldsSent, s'', st'')) := by
  intro fuel
  induction fuel with
  | zero =>
    intro s st hn r s' st' h
    simp only [partsLoop, Prod.mk.injEq] at h ⊢
    left; rw [← h.2.2]; exact ⟨hn, h.1, h.2.1, rfl⟩
  | succ fuel ih =>
    intro s st hn r s' st' h
    unfold partsLoop at h ⊢
    rcases hp : nextPart s sep with ⟨(e | (_ | sub)), s1⟩
    · rw [hp] at h
      simp only [Prod.mk.injEq] at h ⊢
      left; rw [← h.2.2]; exact ⟨hn, h.1, h.2.1, rfl⟩
    · rw [hp] at h
      simp only [Prod.mk.injEq] at h ⊢
      left; rw [← h.2.2]; exact ⟨hn, h.1, h.2.1, rfl⟩
    · rw [hp] at h
      simp only at h ⊢
      rcases hb : parseBoundaryStream C sub 1024 with ⟨(e | ⟨t, md⟩), sub1⟩
      · rw [hb] at h
        simp only [Prod.mk.injEq] at h ⊢
        left; rw [← h.2.2]; exact ⟨hn, h.1, h.2.1, rfl⟩
      · rw [hb] at h
        simp only at h ⊢
        rcases hh : handlePart C { S with maxFields := none } H fuel64 t md sub1 st with ⟨r1, sub2, st2⟩
        rw [hh] at h
        rcases handlePart_limit C S H fuel64 n t md sub1 st hn hh with ⟨a1, a2⟩ | ⟨a1, s'', st'', a2⟩
        · rw [a2]
          rcases r1 with e | _
          · simp only [Prod.mk.injEq] at h ⊢
            left; rw [← h.2.2]; exact ⟨a1, h.1, h.2.1, rfl⟩
          · exact ih _ _ a1 h
        · rw [a2]
          right
          refine ⟨?_, _, _, rfl⟩
          rcases r1 with e | _
          · simp only [Prod.mk.injEq] at h
            rw [← h.2.2]; exact a1
          · have := partsLoop_numKeys_mono _ _ _ h
            omega


omit [Producer ρ] in
theorem Parses.counted_stop {H : HandlerOps ρ σ F} {C : Codecs} {S : Settings} {fuel64 : Nat}
    {sep D D' : Bytes} {st st' : PState σ F} {r} (hC : ∀ b, C.Avoids (.stopUpload b)) (hset : C.Settles S)
    (h : Parses C S H fuel64 sep D st r D' st') (hc : Counted C S st)
    (hr : r = .ok () ∨ ∃ b, r = .error (.stopUpload b)) :
    (items st'.post).length = st'.numKeys := by
  induction h with
  | done => exact hc.exact hset
  | headErr _ hh =>
    rcases hr with hr | ⟨b, hr⟩
    · simp at hr
    · simp at hr; subst hr
      obtain ⟨i, _, h⟩ := hh
      exact absurd h (partHeaders_no_err (hC b) _ _ _)
  | part _ _ hrun _ _ _ _ ih =>
    rcases hrun.counted hc with ⟨_, h⟩ | ⟨⟨e, h⟩, _⟩
    · exact ih h hr
    · simp at h
  | @partErr _ _ st0 _ _ _ _ _ _ _ _ hrun _ =>
    obtain ⟨b, rfl⟩ : ∃ b, _ = Exc.stopUpload b := by
      rcases hr with hr | ⟨b, hr⟩
      · simp at hr
      · exact ⟨b, by simpa using hr⟩
    generalize hq : (Except.error _ : Except Exc Unit) = q at hrun
    have key : ∀ st1, (∃ r1, completeOld H st0 = (r1, st1)) → (items st1.post).length = st1.numKeys := by
      rintro st1 ⟨r1, h1⟩
      obtain ⟨_, b, c⟩ := completeOld_num h1
      rw [b, c]; exact hc.exact hset
    cases hrun with
    | completeErr h1 => exact key _ ⟨_, h1⟩
    | skip => simp at hq
    | nameErr _ _ hn => simp at hq; subst hq; simpa using forceText_err hn
    | tooMany => simp at hq
    | negative => simp at hq
    | field _ _ _ _ _ _ _ hst =>
      subst hq
      rcases storeField_err (hC b) hst with h | h <;> simp at h
    | fileNameErr _ _ _ _ hd =>
      simp at hq; subst hq
      rcases dispositionFileName_err hd with h | h <;> simp at h
    | noFileName => simp at hq
    | file => simp at hq
    | fileSkip h1 => have := key _ ⟨_, h1⟩; exact this
    | fileErr h1 => have := key _ ⟨_, h1⟩; exact this

omit [Producer ρ] in
theorem Counted.start {C : Codecs} {S : Settings} (H : HandlerOps ρ σ F) (w : σ)
    (h1 : S.dataMaxMemory.any (· < 0) = false) (h2 : S.maxFields.any (· < 0) = false) :
    Counted C S (PState.start H w) :=
  ⟨⟨h1, h2⟩, le_refl _, fun _ => rfl, fun _ => le_refl _⟩

end

section
variable {ρ σ F : Type} [Producer ρ] {L : Lawful ρ}

theorem emptyQueryDict_none (C : Codecs) (S : Settings) (h : emptyQueryDict C { S with maxFields := none } = .ok ())
    (n : Int) : emptyQueryDict C { S with maxFields := some n } =
      if n < 0 then .error .tooManyFieldsSent else .ok () := by
  unfold emptyQueryDict at h ⊢
  simp only at h ⊢
  split at h
  · rename_i e he
    by_cases hu : e = .unicodeDecodeError
    · subst hu; simp
    · simp [hu] at h
  · simp

theorem parse_limit (C : Codecs) (S : Settings) (H : HandlerOps ρ σ F) (fuel64 : Nat) (m : MultiPart)
    (hc : 1 ≤ m.chunkSize) (hl : LeavesParsing L H) (hC : ∀ b, C.Avoids (.stopUpload b)) (hset : C.Settles S)
    (hign : ∀ i n1 n2 (S' : Settings) s w,
      H.rawInput i ⟨m.contentLength, m.boundary, { S' with maxFields := n1 }⟩ s w =
      H.rawInput i ⟨m.contentLength, m.boundary, { S' with maxFields := n2 }⟩ s w)
    (hmem : S.dataMaxMemory.any (· < 0) = false)
    (input : LazyStream ρ) (w : σ) (hi : SOK L input) (n : Int) {post files s' w'}
    (h : m.parse C { S with maxFields := none } H fuel64 input w = (.ok (post, files), s', w')) :
    ((items post).length ≤ n →
      m.parse C { S with maxFields := some n } H fuel64 input w = (.ok (post, files), s', w')) ∧
    (n < (items post).length →
      (m.parse C { S with maxFields := some n } H fuel64 input w).1 = .error .tooManyFieldsSent) := by
  have hraw : ∀ is s w, rawInputLoop H ⟨m.contentLength, m.boundary, { S with maxFields := some n }⟩ is s w =
      rawInputLoop H ⟨m.contentLength, m.boundary, { S with maxFields := none }⟩ is s w := by
    intro is
    induction is with
    | nil => intro s w; rfl
    | cons i is ih =>
      intro s w
      unfold rawInputLoop
      rw [hign i (some n) none S s w]
      split
      · rfl
      · rfl
      · exact ih _ _
  unfold MultiPart.parse at h ⊢
  by_cases h0 : m.contentLength = 0
  · rw [if_pos h0] at h ⊢
    cases hq : emptyQueryDict C { S with maxFields := none } with
    | error e => rw [hq] at h; simp at h
    | ok u =>
      rw [hq] at h
      simp only [Prod.mk.injEq, Except.ok.injEq] at h
      obtain ⟨⟨rfl, rfl⟩, rfl, rfl⟩ := h
      rw [emptyQueryDict_none C S hq n]
      constructor
      · intro hn
        simp [items] at hn
        rw [if_neg (by omega)]
      · intro hn
        simp [items] at hn
        rw [if_pos (by omega)]
  · rw [if_neg h0] at h ⊢
    rw [hraw]
    rcases rawInputLoop_leaves hl ⟨m.contentLength, m.boundary, { S with maxFields := none }⟩
      (List.range H.count) input w hi with ⟨e, s1, w1, a1, _⟩ | ⟨input1, w1, a1, a2, _⟩
    · rw [a1] at h; simp at h
    · rw [a1] at h ⊢
      simp only at h ⊢
      cases hq : emptyQueryDict C { S with maxFields := none } with
      | error e => rw [hq] at h; simp at h
      | ok u =>
        rw [hq] at h
        rw [emptyQueryDict_none C S hq n]
        by_cases hn0 : n < 0
        · rw [if_pos hn0]
          exact ⟨fun h => by omega, fun _ => rfl⟩
        · rw [if_neg hn0]
          simp only at h ⊢
          obtain ⟨r, s2, st2, b1, b2, b3⟩ := partsLoop_spec (ChunkIter.lawful L) C
            { S with maxFields := none } H fuel64
            (SepOK.dashes m.boundary) ((LazyStream.mk' (⟨input1, m.chunkSize⟩ : ChunkIter ρ)).size + 1)
            (LazyStream.mk' ⟨input1, m.chunkSize⟩) (PState.start H w1) ⟨a2.inv, hc, a2.hist⟩
            (strong_nil_mk _) rfl (by omega)
          have hlim := partsLoop_limit C S H fuel64 n (b!"--" ++ m.boundary) _ _ (PState.start H w1)
            (by simp [PState.start]; omega) b1
          unfold PState.start at b1 hlim
          rw [b1] at h
          have hr : r = .ok () ∨ ∃ b, r = .error (.stopUpload b) := by
            rcases r with e | u
            · right
              cases e <;> first | (simp at h; done) | exact ⟨_, rfl⟩
            · exact .inl rfl
          have hk := b3.counted_stop hC (S := { S with maxFields := none }) hset (Counted.start H w1 hmem rfl) hr
          have hpost : post = st2.post := by
            rcases hr with rfl | ⟨b, rfl⟩
            · simp only at h
              split at h
              · simp at h
              · unfold finishParse at h; split at h
                · simp at h
                · simp only [Prod.mk.injEq, Except.ok.injEq] at h; exact h.1.1.symm
            · simp only at h
              split at h
              · simp at h
              · split at h
                · unfold finishParse at h; split at h
                  · simp at h
                  · simp only [Prod.mk.injEq, Except.ok.injEq] at h; exact h.1.1.symm
                · split at h
                  · simp at h
                  · unfold finishParse at h; split at h
                    · simp at h
                    · simp only [Prod.mk.injEq, Except.ok.injEq] at h; exact h.1.1.symm
          subst hpost
          rw [hk]
          rcases hlim with ⟨c1, c2⟩ | ⟨c1, s3, st3, c2⟩
          · rw [c2]
            exact ⟨fun _ => h, fun hlt => by omega⟩
          · rw [c2]
            exact ⟨fun hle => by omega, fun _ => rfl⟩

end
end Verif
