import Verif.Props.Limits
/-! Handlers that raise only certain exceptions when they are called in the order in which the parser calls them. -/

namespace Verif
open Spec

/-- Called in the order in which the parser calls them, the handlers raise only exceptions from `X`.  `Idle` holds
before a file is announced, `Busy` from then on until it is complete. -/
structure HandlerOps.Phases {ρ σ F : Type} (H : HandlerOps ρ σ F) (Idle Busy : σ → Prop) (X : Exc → Prop) : Prop where
  idle : ∀ w, Busy w → Idle w
  newFiles : ∀ a w r w', Idle w → newFiles H a (List.range H.count) w = (r, w') →
    (r = .ok () → Busy w') ∧ ∀ e, r = .error e → X e
  feed : ∀ d cs w r cs' w', Busy w → feedChunk H (List.range H.count) d cs w = (r, cs', w') →
    (r = .ok () → Busy w') ∧ ∀ e, r = .error e → X e
  complete : ∀ cs w r w', Busy w → completeLoop H cs (List.range H.count) w = (r, w') →
    ((∃ f, r = .ok f) → Idle w') ∧ ∀ e, r = .error e → X e
  uploadComplete : ∀ w, Idle w → (uploadCompleteLoop H (List.range H.count) w).1 = .ok ()
  plain : ∀ e, X e → e ≠ .skipFile ∧ ∀ b, e ≠ .stopUpload b

section
variable {ρ σ F : Type} {H : HandlerOps ρ σ F} {Idle Busy : σ → Prop} {X : Exc → Prop}

/-- The phase of the handlers in a state of the parser. -/
structure InPhase (Idle Busy : σ → Prop) (st : PState σ F) : Prop where
  idle : Idle st.world
  busy : ∀ c n, st.oldField = some (c :: n) → Busy st.world

theorem completeOld_phase (hp : H.Phases Idle Busy X) {st st1 : PState σ F} {r} (h : InPhase Idle Busy st)
    (hc : completeOld H st = (r, st1)) : (r = .ok () → InPhase Idle Busy st1 ∧ ∀ c n, st1.oldField ≠ some (c :: n)) ∧
      ∀ e, r = .error e → X e := by
  unfold completeOld at hc
  split at hc
  · rename_i c n ho
    have hb := h.busy c n ho
    unfold handleFileComplete at hc
    rcases hl : completeLoop H st.counters (List.range H.count) st.world with ⟨(e | (_ | f)), w'⟩
    · have := hp.complete _ _ _ _ hb hl
      rw [hl] at hc
      simp only [Prod.mk.injEq] at hc
      obtain ⟨rfl, rfl⟩ := hc
      exact ⟨by simp, fun e' he => this.2 _ (by simpa using he)⟩
    all_goals
      have := hp.complete _ _ _ _ hb hl
      rw [hl] at hc
      simp only [Prod.mk.injEq] at hc
      obtain ⟨rfl, rfl⟩ := hc
      exact ⟨fun _ => ⟨⟨this.1 ⟨_, rfl⟩, by simp⟩, by simp⟩, by simp⟩
  · rename_i ho
    simp only [Prod.mk.injEq] at hc
    obtain ⟨rfl, rfl⟩ := hc
    exact ⟨fun _ => ⟨h, fun c n h => ho c n h⟩, by simp⟩

theorem FileRun.phase (hp : H.Phases Idle Busy X) {fuel64 : Nat} {b64 : Bool} {content cs w r cs' w'}
    (h : FileRun H fuel64 b64 content cs w r cs' w') (hb : Busy w) :
    (r = .ok () → Busy w') ∧ ∀ e, r = .error e → X e ∨ e = .typeError ∨ (e = .diverge ∧ b64 = true ∧
      (content.length ≤ fuel64 → (Py.removeSpaces content).length % 4 ≠ 0)) := by
  induction h with
  | stop => exact ⟨fun _ => hb, by simp⟩
  | step _ hd hf _ ih =>
    obtain ⟨i1, i2⟩ := ih ((hp.feed _ _ _ _ _ _ hb hf).1 rfl)
    refine ⟨i1, fun e he => ?_⟩
    rcases i2 e he with h | h | ⟨h1, h2, h3⟩
    · exact .inl h
    · exact .inr (.inl h)
    · exact .inr (.inr ⟨h1, h2, spin_rest (hd h2).1 h3⟩)
  | fail _ _ hf => exact ⟨by simp, fun e he => .inl ((hp.feed _ _ _ _ _ _ hb hf).2 e he)⟩
  | badBase64 => exact ⟨by simp, fun e he => .inr (.inl (by simpa using he.symm))⟩
  | spin h1 h2 => exact ⟨by simp, fun e he => .inr (.inr ⟨by simpa using he.symm, h1, h2⟩)⟩

theorem RecvRun.phase (hp : H.Phases Idle Busy X) {fuel64 : Nat} {args : NewFileArgs} {content : Bytes} {w r cs w'}
    (h : RecvRun H fuel64 args content w r cs w') (hi : Idle w) :
    (r = .ok () → Busy w') ∧ ∀ e, r = .error e → X e ∨ e = .typeError ∨
      (e = .diverge ∧ args.transferEncoding = some b!"base64" ∧
      (content.length ≤ fuel64 → (Py.removeSpaces content).length % 4 ≠ 0)) := by
  cases h with
  | refused hn => exact ⟨by simp, fun e he => .inl ((hp.newFiles _ _ _ _ hi hn).2 e he)⟩
  | fed hn hf =>
    obtain ⟨h1, h2⟩ := hf.phase hp ((hp.newFiles _ _ _ _ hi hn).1 rfl)
    exact ⟨h1, fun e he => by simpa using h2 e he⟩

theorem PartRun.phase (hp : H.Phases Idle Busy X) {C : Codecs} {S : Settings} {fuel64 : Nat} {P t md content}
    {st st' : PState σ F} {b : Bool} {r} (hP : PartHead C P t md content)
    (h : PartRun C S H fuel64 t md content st b r st') (hs : InPhase Idle Busy st) (hw : Within S st) :
    (r = .ok () → InPhase Idle Busy st') ∧
    ∀ e, r = .error e → C.Avoids e → X e ∨ ParserExc e ∨ (e = .diverge ∧ SpinPart C fuel64 P) := by
  cases h with
  | completeErr hc => exact ⟨by simp, fun e he _ => .inl ((completeOld_phase hp hs hc).2 e he)⟩
  | skip hc => exact ⟨fun _ => ((completeOld_phase hp hs hc).1 rfl).1, by simp⟩
  | nameErr _ _ hn =>
    refine ⟨by simp, fun e he _ => .inr (.inl ?_)⟩
    simp at he; subst he; exact .inr (.inr (.inr (.inl (forceText_err hn))))
  | tooMany => exact ⟨by simp, fun e he _ => .inr (.inl (.inl (by simpa using he.symm)))⟩
  | negative hc _ _ _ hneg => rw [(completeOld_num hc).1, hw.1] at hneg; simp at hneg
  | field hc _ _ _ _ _ _ hst =>
    obtain ⟨h1, h2⟩ := (completeOld_phase hp hs hc).1 rfl
    refine ⟨fun hr => ?_, fun e he hC => ?_⟩
    · subst hr
      obtain ⟨key, item, post, _, _, _, _, _, _, _, hb, _, _, rfl⟩ := storeField_state hst
      exact ⟨h1.idle, fun c n h => absurd h (h2 c n)⟩
    · subst he
      rcases storeField_err hC hst with h | h
      · exact .inr (.inl (.inr (.inr (.inl h))))
      · exact .inr (.inl (.inr (.inl h)))
  | fileNameErr _ _ _ _ hd =>
    refine ⟨by simp, fun e he _ => .inr (.inl ?_)⟩
    simp at he; subst he
    rcases dispositionFileName_err hd with h | h
    · exact .inr (.inr (.inr (.inl h)))
    · exact .inr (.inr (.inr (.inr h)))
  | noFileName hc => exact ⟨fun _ => ((completeOld_phase hp hs hc).1 rfl).1, by simp⟩
  | file hc _ _ _ _ _ hrecv =>
    have hb := (hrecv.phase hp ((completeOld_phase hp hs hc).1 rfl).1.idle).1 rfl
    exact ⟨fun _ => ⟨hp.idle _ hb, fun _ _ _ => hb⟩, by simp⟩
  | fileSkip hc _ _ _ _ _ hrecv =>
    exfalso
    rcases (hrecv.phase hp ((completeOld_phase hp hs hc).1 rfl).1.idle).2 _ rfl with h | h | h
    · exact (hp.plain _ h).1 rfl
    · cases h
    · cases h.1
  | fileErr hc _ _ ht _ _ hrecv _ =>
    refine ⟨by simp, fun e he _ => ?_⟩
    subst ht
    simp at he; subst he
    rcases (hrecv.phase hp ((completeOld_phase hp hs hc).1 rfl).1.idle).2 _ rfl with h | h | ⟨h1, h2, h3⟩
    · exact .inl h
    · exact .inr (.inl (.inr (.inr (.inl h))))
    · exact .inr (.inr ⟨h1, md, content, hP, h2, h3⟩)

theorem Parses.phase (hp : H.Phases Idle Busy X) {C : Codecs} {S : Settings} {fuel64 : Nat} {sep D D' : Bytes}
    {st st' : PState σ F} {r} (h : Parses C S H fuel64 sep D st r D' st') (hs : InPhase Idle Busy st) (hw : Within S st) :
    (r = .ok () → InPhase Idle Busy st') ∧
    ∀ e, r = .error e → C.Avoids e → X e ∨ ParserExc e ∨ (e = .diverge ∧ ∃ D1, D1 <:+ D ∧ SpinPart C fuel64 (cut sep D1)) := by
  induction h with
  | done => exact ⟨fun _ => hs, by simp⟩
  | headErr _ hh _ =>
    refine ⟨by simp, fun e he hC => ?_⟩
    simp at he; subst he
    obtain ⟨i, _, h⟩ := hh
    exact absurd h (partHeaders_no_err hC _ _ _)
  | @partErr D _ _ _ _ _ _ _ _ _ hP hrun _ =>
    refine ⟨by simp, fun e he hC => ?_⟩
    rcases (hrun.phase hp hP hs hw).2 e he hC with h | h | ⟨h1, h2⟩
    · exact .inl h
    · exact .inr (.inl h)
    · exact .inr (.inr ⟨h1, D, List.suffix_refl _, h2⟩)
  | part _ hP hrun hsuf _ _ _ ih =>
    obtain ⟨i1, i2⟩ := ih ((hrun.phase hp hP hs hw).1 rfl) (hrun.within hw)
    refine ⟨i1, fun e he hC => ?_⟩
    rcases i2 e he hC with h | h | ⟨h1, D1, h2, h3⟩
    · exact .inl h
    · exact .inr (.inl h)
    · exact .inr (.inr ⟨h1, D1, h2.trans hsuf, h3⟩)

end

section
variable {ρ σ F : Type} [Producer ρ] {L : Lawful ρ} {H : HandlerOps ρ σ F} {Idle Busy : σ → Prop} {X : Exc → Prop}

/-- What a multipart parse can raise. -/
theorem parse_phase (hp : H.Phases Idle Busy X) (C : Codecs) (hst : ∀ b, C.Avoids (.stopUpload b)) (S : Settings)
    (fuel64 : Nat) (m : MultiPart) (hc : 1 ≤ m.chunkSize) (hl : LeavesParsing L H)
    (hmem : ∀ k, S.dataMaxMemory = some k → 0 ≤ k) (input : LazyStream ρ) (w : σ) (hi : SOK L input)
    (hraw : ∃ input1 w1, rawInputLoop H { contentLength := m.contentLength, boundary := m.boundary, settings := S }
      (List.range H.count) input w = (.ok none, input1, w1) ∧ Idle w1)
    {e : Exc} (hC : C.Avoids e) {s' w'} (h : m.parse C S H fuel64 input w = (.error e, s', w')) :
    X e ∨ ParserExc e ∨ (e = .diverge ∧ ∃ D, D <:+ L.sc input ∧ SpinPart C fuel64 (cut (b!"--" ++ m.boundary) D)) := by
  have hqe : emptyQueryDict C S = .error e → ParserExc e := by
    intro hq
    unfold emptyQueryDict at hq
    split at hq
    · rename_i e' he
      split at hq
      · split at hq
        · simp at hq; exact .inl hq.symm
        · simp at hq
      · simp at hq; subst hq; exact absurd he (hC.decode _ _)
    · split at hq
      · simp at hq; exact .inl hq.symm
      · simp at hq
  obtain ⟨i1, w1, hr1, hr2⟩ := hraw
  by_cases h0 : m.contentLength = 0
  · cases hq : emptyQueryDict C S with
    | error e' =>
      simp only [MultiPart.parse, h0, hq, if_true, Prod.mk.injEq, Except.error.injEq] at h
      rw [h.1] at hq
      exact .inr (.inl (hqe hq))
    | ok u => simp [MultiPart.parse, h0, hq] at h
  · obtain ⟨e1, _, _, a1, i, s, w2, a2⟩ | ⟨input1, w1', a1, a2, a3⟩ :=
      rawInputLoop_leaves hl { contentLength := m.contentLength, boundary := m.boundary, settings := S }
        (List.range H.count) input w hi
    · rw [hr1] at a1; simp at a1
    · rw [hr1] at a1
      simp only [Prod.mk.injEq, true_and] at a1
      obtain ⟨rfl, rfl⟩ := a1
      rcases parse_spec C S H fuel64 m hc h0 input i1 w w1 hr1 a2 with
        ⟨e', b1, b2⟩ | ⟨hq, r, D', st', s2, R, w2, h3, h4, h5, _⟩
      · rw [h] at b2
        simp only [Prod.mk.injEq, Except.error.injEq] at b2
        rw [← b2.1] at b1
        exact .inr (.inl (hqe b1))
      · rw [h] at h3
        simp only [Prod.mk.injEq] at h3
        rw [← h3.1] at h5
        have hw : Within S (PState.start H w1) := by
          refine ⟨?_, ?_⟩
          · cases hd : S.dataMaxMemory with
            | none => rfl
            | some k => have := hmem k hd; simp [PState.start]; omega
          · unfold emptyQueryDict at hq
            by_contra hx
            rw [Bool.not_eq_false] at hx
            have hx' : S.maxFields.any (· < 0) = true := hx
            rw [hx'] at hq
            simp only [if_true] at hq
            split at hq
            · split at hq <;> simp at hq
            · simp at hq
        obtain ⟨p1, p2⟩ := h4.phase hp ⟨hr2, by simp [PState.start]⟩ hw
        have hr : r = .error e := by
          unfold endParse at h5
          split at h5
          · split at h5
            · rename_i hu
              have := hp.uploadComplete _ (p1 rfl).idle
              rw [hu] at this; cases this
            · simp at h5
          · exfalso
            rcases p2 _ rfl (hst _) with h | h | h
            · exact (hp.plain _ h).2 _ rfl
            · rcases h with h | h | h | h | h <;> cases h
            · cases h.1
          · simp only [Prod.mk.injEq, Except.error.injEq] at h5; rw [h5.1]
        rcases p2 e hr hC with h | h | ⟨h, D, h1, h2⟩
        · exact .inl h
        · exact .inr (.inl h)
        · exact .inr (.inr ⟨h, D, h1.trans a3, h2⟩)

end
end Verif
