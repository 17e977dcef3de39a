import Verif.Proofs.Multipart
/-! `MultiPart.parse` in terms of `Parses`. -/

namespace Verif
open Spec

/-- The initial state of the loop over the parts. -/
def PState.start {ρ σ F : Type} (H : HandlerOps ρ σ F) (w : σ) : PState σ F :=
  { world := w, counters := List.replicate H.count 0 }

/-- What happens after the loop over the parts, without the streams. -/
def endParse {ρ σ F : Type} (H : HandlerOps ρ σ F) (r : Except Exc Unit) (st : PState σ F) :
    Except Exc (MVD PostItem × MVD F) × σ :=
  match r with
  | .ok () =>
    match uploadCompleteLoop H (List.range H.count) st.world with
    | (.error e, w) => (.error e, w)
    | (.ok (), w) => (.ok (st.post, st.files), w)
  | .error (.stopUpload _) =>
    match closeFiles H (List.range H.count) st.world with
    | (.error e, w) => (.error e, w)
    | (.ok (), w) =>
      match uploadCompleteLoop H (List.range H.count) w with
      | (.error e, w) => (.error e, w)
      | (.ok (), w) => (.ok (st.post, st.files), w)
  | .error e => (.error e, st.world)

section
variable {ρ σ F : Type} [Producer ρ] {L : Lawful ρ}

theorem strong_nil_mk (p : ChunkIter ρ) :
    Strong (LazyStream.mk' p).history (LazyStream.mk' p).leftover.length := Strong.nil _

/-- Parsing with a positive content length when no handler takes over; also what happens to the input when a
handler stops the upload. -/
theorem parse_spec_stop (C : Codecs) (S : Settings) (H : HandlerOps ρ σ F) (fuel64 : Nat) (m : MultiPart)
    (hc : 1 ≤ m.chunkSize) (hl : m.contentLength ≠ 0) (input input1 : LazyStream ρ) (w w1 : σ)
    (hraw : rawInputLoop H { contentLength := m.contentLength, boundary := m.boundary, settings := S }
      (List.range H.count) input w = (.ok none, input1, w1)) (h1 : SOK L input1) :
    (∃ e, emptyQueryDict C S = .error e ∧
      m.parse C S H fuel64 input w = (.error e, input1, w1)) ∨
    (emptyQueryDict C S = .ok () ∧ ∃ r D' st' s' R w', m.parse C S H fuel64 input w = (R, s', w') ∧
      Parses C S H fuel64 (b!"--" ++ m.boundary) (L.sc input1) (PState.start H w1) r D' st' ∧
      endParse H r st' = (R, w') ∧ (r = .ok () → D' = [] ∧ L.sc s' = [] ∧ L.Inv s'.producer) ∧
      (r = .error (.stopUpload false) → ∀ x, R = .ok x → L.sc s' = [] ∧ L.Inv s'.producer)) := by
  unfold MultiPart.parse
  rw [if_neg hl, hraw]
  simp only
  cases hq : emptyQueryDict C S with
  | error e => left; exact ⟨e, rfl, rfl⟩
  | ok u =>
    right
    refine ⟨rfl, ?_⟩
    simp only
    obtain ⟨r, s', st', a1, a2, a3⟩ := partsLoop_spec (ChunkIter.lawful L) C S H fuel64
      (SepOK.dashes m.boundary) ((LazyStream.mk' (⟨input1, m.chunkSize⟩ : ChunkIter ρ)).size + 1)
      (LazyStream.mk' ⟨input1, m.chunkSize⟩) (PState.start H w1) ⟨h1.inv, hc, h1.hist⟩
      (strong_nil_mk _) rfl (by omega)
    have a1' := a1
    unfold PState.start at a1'
    rw [a1']
    have hsc : (ChunkIter.lawful L).sc (LazyStream.mk' (⟨input1, m.chunkSize⟩ : ChunkIter ρ)) =
        L.sc input1 := rfl
    rw [hsc] at a3
    have hinv : L.Inv s'.producer.flo.producer := a2.1
    rcases r with e | u
    · by_cases he : ∃ b, e = .stopUpload b
      · obtain ⟨b, rfl⟩ := he
        simp only
        rcases hcl : closeFiles H (List.range H.count) st'.world with ⟨(e | _), w2⟩
        · exact ⟨_, _, st', _, _, _, rfl, a3, by simp [endParse, hcl], by simp, by simp⟩
        · obtain ⟨s2, b1, b2, b3, _⟩ := LazyStream.exhaust_spec L s'.producer.flo hinv
          cases b
          · simp only [b1, finishParse, Bool.false_eq_true, if_false]
            rcases hu : uploadCompleteLoop H (List.range H.count) w2 with ⟨(e | _), w3⟩
            · exact ⟨_, _, st', _, _, _, rfl, a3, by simp [endParse, hcl, hu], by simp, fun _ _ _ => ⟨b3, b2⟩⟩
            · exact ⟨_, _, st', _, _, _, rfl, a3, by simp [endParse, hcl, hu], by simp, fun _ _ _ => ⟨b3, b2⟩⟩
          · simp only [finishParse, if_true]
            rcases hu : uploadCompleteLoop H (List.range H.count) w2 with ⟨(e | _), w3⟩
            · exact ⟨_, _, st', _, _, _, rfl, a3, by simp [endParse, hcl, hu], by simp, by simp⟩
            · exact ⟨_, _, st', _, _, _, rfl, a3, by simp [endParse, hcl, hu], by simp, by simp⟩
      · refine ⟨.error e, _, st', s'.producer.flo, .error e, st'.world, ?_, a3, ?_, by simp, by simp⟩
        · cases e <;> first | rfl | exact absurd ⟨_, rfl⟩ he
        · cases e <;> first | rfl | exact absurd ⟨_, rfl⟩ he
    · simp only
      obtain ⟨s2, b1, b2, b3, _⟩ := LazyStream.exhaust_spec L s'.producer.flo hinv
      have hD : (ChunkIter.lawful L).sc s' = [] := by
        clear hsc b1 b2 b3 hinv a1 a1' a2
        generalize L.sc input1 = D at a3
        generalize (ChunkIter.lawful L).sc s' = D' at a3
        generalize PState.start H w1 = st at a3
        generalize hr : (Except.ok () : Except Exc Unit) = r at a3
        induction a3 with
        | done => rfl
        | headErr => simp at hr
        | partErr => simp at hr
        | part _ _ _ _ _ _ _ ih => exact ih hr
      rw [b1]
      simp only [finishParse]
      rcases hu : uploadCompleteLoop H (List.range H.count) st'.world with ⟨(e | _), w3⟩
      · exact ⟨_, _, st', _, _, _, rfl, a3, by simp [endParse, hu], fun _ => ⟨hD, b3, b2⟩, by simp⟩
      · exact ⟨_, _, st', _, _, _, rfl, a3, by simp [endParse, hu], fun _ => ⟨hD, b3, b2⟩, by simp⟩

/-- Parsing with a positive content length when no handler takes over. -/
theorem parse_spec (C : Codecs) (S : Settings) (H : HandlerOps ρ σ F) (fuel64 : Nat) (m : MultiPart)
    (hc : 1 ≤ m.chunkSize) (hl : m.contentLength ≠ 0) (input input1 : LazyStream ρ) (w w1 : σ)
    (hraw : rawInputLoop H { contentLength := m.contentLength, boundary := m.boundary, settings := S }
      (List.range H.count) input w = (.ok none, input1, w1)) (h1 : SOK L input1) :
    (∃ e, emptyQueryDict C S = .error e ∧
      m.parse C S H fuel64 input w = (.error e, input1, w1)) ∨
    (emptyQueryDict C S = .ok () ∧ ∃ r D' st' s' R w', m.parse C S H fuel64 input w = (R, s', w') ∧
      Parses C S H fuel64 (b!"--" ++ m.boundary) (L.sc input1) (PState.start H w1) r D' st' ∧
      endParse H r st' = (R, w') ∧ (r = .ok () → D' = [] ∧ L.sc s' = [] ∧ L.Inv s'.producer)) := by
  rcases parse_spec_stop C S H fuel64 m hc hl input input1 w w1 hraw h1 with h | ⟨h, r, D', st', s', R, w', a1, a2, a3, a4, -⟩
  · exact .inl h
  · exact .inr ⟨h, r, D', st', s', R, w', a1, a2, a3, a4⟩

end
end Verif
