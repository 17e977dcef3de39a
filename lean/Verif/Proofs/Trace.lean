import Verif.Proofs.ParseInv
import Verif.Spec.Trace
/-! Tracing changes nothing. -/

namespace Verif
open Spec

/-- Forget the log. -/
def PState.untrace {σ F : Type} (st : PState (σ × List (Ev F)) F) : PState σ F :=
  { world := st.world.1, post := st.post, files := st.files, oldField := st.oldField,
    counters := st.counters, numBytes := st.numBytes, numKeys := st.numKeys }

section
variable {ρ σ F τ : Type} [Producer τ] (H : HandlerOps ρ σ F)

theorem newFiles_traced (a : NewFileArgs) : ∀ (is : List Nat) (w : σ × List (Ev F)),
    newFiles H a is w.1 = ((newFiles (traced H) a is w).1, (newFiles (traced H) a is w).2.1) := by
  intro is
  induction is with
  | nil => intro w; rfl
  | cons i is ih =>
    intro w
    simp only [newFiles, traced]
    rcases H.newFile i a w.1 with ⟨(e | _), w'⟩
    · cases e <;> rfl
    · exact ih (w', _)

theorem feedChunk_traced : ∀ (is : List Nat) (d : Bytes) (cs : List Nat) (w : σ × List (Ev F)),
    feedChunk H is d cs w.1 = ((feedChunk (traced H) is d cs w).1, (feedChunk (traced H) is d cs w).2.1,
      (feedChunk (traced H) is d cs w).2.2.1) := by
  intro is
  induction is with
  | nil => intro d cs w; rfl
  | cons i is ih =>
    intro d cs w
    simp only [feedChunk, traced]
    rcases H.receive i d (cs.getD i 0) w.1 with ⟨(e | (_ | d')), w'⟩
    · rfl
    · rfl
    · exact ih d' _ (w', _)

theorem completeLoop_traced (cs : List Nat) : ∀ (is : List Nat) (w : σ × List (Ev F)),
    completeLoop H cs is w.1 = ((completeLoop (traced H) cs is w).1,
      (completeLoop (traced H) cs is w).2.1) := by
  intro is
  induction is with
  | nil => intro w; rfl
  | cons i is ih =>
    intro w
    simp only [completeLoop, traced]
    rcases H.fileComplete i (cs.getD i 0) w.1 with ⟨(e | (_ | f)), w'⟩
    · rfl
    · exact ih (w', _)
    · by_cases ht : H.truthy f w' = true
      · simp only [ht, if_true]
      · simp only [ht, if_false, Bool.false_eq_true]
        exact ih (w', _)

theorem closeFiles_traced : ∀ (is : List Nat) (w : σ × List (Ev F)),
    closeFiles H is w.1 = ((closeFiles (traced H) is w).1, (closeFiles (traced H) is w).2.1) := by
  intro is
  induction is with
  | nil => intro w; rfl
  | cons i is ih =>
    intro w
    simp only [closeFiles, traced]
    rcases H.close i w.1 with ⟨(e | _), w'⟩
    · rfl
    · exact ih (w', _)

theorem uploadCompleteLoop_traced : ∀ (is : List Nat) (w : σ × List (Ev F)),
    uploadCompleteLoop H is w.1 = ((uploadCompleteLoop (traced H) is w).1,
      (uploadCompleteLoop (traced H) is w).2.1) := by
  intro is
  induction is with
  | nil => intro w; rfl
  | cons i is ih =>
    intro w
    simp only [uploadCompleteLoop, traced]
    rcases H.uploadComplete i w.1 with ⟨(e | b), w'⟩
    · rfl
    · cases b
      · exact ih (w', _)
      · rfl

theorem rawInputLoop_traced (a : RawArgs) : ∀ (is : List Nat) (s : LazyStream ρ) (w : σ × List (Ev F)),
    rawInputLoop H a is s w.1 = ((rawInputLoop (traced H) a is s w).1,
      (rawInputLoop (traced H) a is s w).2.1, (rawInputLoop (traced H) a is s w).2.2.1) := by
  intro is
  induction is with
  | nil => intro s w; rfl
  | cons i is ih =>
    intro s w
    simp only [rawInputLoop, traced]
    rcases H.rawInput i a s w.1 with ⟨(e | (_ | r)), s', w'⟩
    · rfl
    · exact ih s' (w', _)
    · rfl

theorem fileLoop_traced (fuel64 : Nat) (b64 : Bool) : ∀ (fuel : Nat) (s : LazyStream τ) (cs : List Nat)
    (w : σ × List (Ev F)), fileLoop H fuel64 b64 fuel s cs w.1 =
      ((fileLoop (traced H) fuel64 b64 fuel s cs w).1, (fileLoop (traced H) fuel64 b64 fuel s cs w).2.1,
       (fileLoop (traced H) fuel64 b64 fuel s cs w).2.2.1,
       (fileLoop (traced H) fuel64 b64 fuel s cs w).2.2.2.1) := by
  intro fuel
  induction fuel with
  | zero => intro s cs w; rfl
  | succ fuel ih =>
    intro s cs w
    unfold fileLoop
    rcases s.next with ⟨(e | (_ | c)), s1⟩
    · rfl
    · rfl
    · simp only
      rcases fileChunk fuel64 b64 c s1 with ⟨(e | d), s2⟩
      · rfl
      · simp only
        rw [feedChunk_traced H _ d cs w]
        have hc : (traced H).count = H.count := rfl
        rw [hc]
        rcases feedChunk (traced H) (List.range H.count) d cs w with ⟨(e | _), cs1, w1⟩
        · rfl
        · exact ih s2 cs1 w1

theorem receiveFile_traced (fuel64 : Nat) (a : NewFileArgs) (s : LazyStream τ) (w : σ × List (Ev F)) :
    receiveFile H fuel64 a s w.1 =
      ((receiveFile (traced H) fuel64 a s w).1, (receiveFile (traced H) fuel64 a s w).2.1,
       (receiveFile (traced H) fuel64 a s w).2.2.1, (receiveFile (traced H) fuel64 a s w).2.2.2.1) := by
  unfold receiveFile
  simp only
  rw [newFiles_traced H a _ w]
  have hc : (traced H).count = H.count := rfl
  rw [hc]
  rcases newFiles (traced H) a (List.range H.count) w with ⟨(e | _), w1⟩
  · rfl
  · exact fileLoop_traced H fuel64 _ _ s _ w1

theorem completeOld_traced (st : PState (σ × List (Ev F)) F) :
    completeOld H st.untrace = ((completeOld (traced H) st).1, (completeOld (traced H) st).2.untrace) := by
  obtain ⟨world, post, files, oldField, counters, numBytes, numKeys⟩ := st
  unfold completeOld
  cases oldField with
  | none => rfl
  | some n =>
    cases n with
    | nil => rfl
    | cons c n =>
      simp only [handleFileComplete, PState.untrace]
      rw [completeLoop_traced H counters _ world]
      have hc : (traced H).count = H.count := rfl
      rw [hc]
      rcases completeLoop (traced H) counters (List.range H.count) world with ⟨(e | (_ | f)), w1⟩ <;> rfl

theorem storeField_traced (C : Codecs) (S : Settings) (name te md raw) (st : PState (σ × List (Ev F)) F) :
    storeField C S name te md raw st.untrace =
      ((storeField C S name te md raw st).1, (storeField C S name te md raw st).2.untrace) := by
  obtain ⟨world, post, files, oldField, counters, numBytes, numKeys⟩ := st
  simp only [PState.untrace]
  unfold storeField
  simp only
  split
  · rfl
  · by_cases hb : S.dataMaxMemory.any
      (fun x => decide (x < ((numBytes + raw.length + (name.length + 2) : Nat) : Int))) = true
    · simp only [hb, if_true]
    · simp only [hb, if_false, Bool.false_eq_true]
      cases postAppend C S post name _ <;> rfl

theorem handlePart_traced (C : Codecs) (S : Settings) (fuel64 : Nat) (t : ItemType) (md : MetaData)
    (s : LazyStream τ) (st : PState (σ × List (Ev F)) F) :
    handlePart C S H fuel64 t md s st.untrace =
      ((handlePart C S (traced H) fuel64 t md s st).1, (handlePart C S (traced H) fuel64 t md s st).2.1,
       (handlePart C S (traced H) fuel64 t md s st).2.2.untrace) := by
  unfold handlePart
  rw [completeOld_traced]
  rcases completeOld (traced H) st with ⟨(e | _), st1⟩
  · rfl
  simp only
  cases partName md with
  | none => rfl
  | some dn =>
    obtain ⟨d, n⟩ := dn
    simp only
    cases forceText n.strip with
    | error e => rfl
    | ok name =>
      cases t with
      | raw => rfl
      | field =>
        simp only [handleField]
        have h1 : st1.untrace.numKeys = st1.numKeys := rfl
        have h2 : st1.untrace.numBytes = st1.numBytes := rfl
        rw [h1, h2]
        split
        · rfl
        · generalize s.read (Option.map _ S.dataMaxMemory) = rd
          rcases rd with ⟨(e | raw), s1⟩
          · rfl
          · simp only
            have := storeField_traced C S name (transferEnc md) md raw { st1 with numKeys := st1.numKeys + 1 }
            exact congrArg (fun x => (x.1, s1, x.2)) this
      | file =>
        simp only [handleFile]
        cases dispositionFileName d with
        | error e => rfl
        | ok fn =>
          simp only
          split
          · rfl
          · have e : st1.untrace.world = st1.world.1 := rfl
            rw [e, receiveFile_traced]
            rcases receiveFile (traced H) fuel64 (fileArgs name fn (transferEnc md) md) s st1.world with
              ⟨(e | _), s1, cs, w1⟩
            · by_cases he : e = .skipFile
              · subst he
                simp only
                rw [closeFiles_traced H _ w1]
                have hc : (traced H).count = H.count := rfl
                rw [hc]
                rcases closeFiles (traced H) (List.range H.count) w1 with ⟨(e | _), w2⟩
                · rfl
                · simp only
                  rcases exhaust s1 with ⟨(e | _), s2⟩ <;> rfl
              · cases e <;> first | rfl | exact absurd rfl he
            · rfl

end

section
variable {ρ σ F : Type} [Producer ρ] (H : HandlerOps ρ σ F)

theorem partsLoop_traced (C : Codecs) (S : Settings) (fuel64 : Nat) (sep : Bytes) :
    ∀ (fuel : Nat) (s : LazyStream (ChunkIter ρ)) (st : PState (σ × List (Ev F)) F),
    partsLoop C S H fuel64 sep fuel s st.untrace =
      ((partsLoop C S (traced H) fuel64 sep fuel s st).1,
       (partsLoop C S (traced H) fuel64 sep fuel s st).2.1,
       (partsLoop C S (traced H) fuel64 sep fuel s st).2.2.untrace) := by
  intro fuel
  induction fuel with
  | zero => intro s st; rfl
  | succ fuel ih =>
    intro s st
    unfold partsLoop
    rcases nextPart s sep with ⟨(e | (_ | sub)), s1⟩
    · rfl
    · rfl
    · simp only
      rcases parseBoundaryStream C sub 1024 with ⟨(e | ⟨t, md⟩), sub1⟩
      · rfl
      · simp only
        rw [handlePart_traced]
        rcases handlePart C S (traced H) fuel64 t md sub1 st with ⟨(e | _), sub2, st2⟩
        · rfl
        · exact ih _ st2

theorem finishParse_traced (s : LazyStream ρ) (st : PState (σ × List (Ev F)) F) :
    finishParse H s st.untrace = ((finishParse (traced H) s st).1, (finishParse (traced H) s st).2.1,
      (finishParse (traced H) s st).2.2.1) := by
  unfold finishParse
  have e : st.untrace.world = st.world.1 := rfl
  rw [e, uploadCompleteLoop_traced]
  have hc : (traced H).count = H.count := rfl
  rw [hc]
  rcases uploadCompleteLoop (traced H) (List.range H.count) st.world with ⟨(e | _), w⟩ <;> rfl

/-- Tracing changes neither the result nor the stream nor the handlers. -/
theorem parse_traced (C : Codecs) (S : Settings) (fuel64 : Nat) (m : MultiPart) (input : LazyStream ρ)
    (w : σ × List (Ev F)) :
    m.parse C S H fuel64 input w.1 =
      ((m.parse C S (traced H) fuel64 input w).1, (m.parse C S (traced H) fuel64 input w).2.1,
       (m.parse C S (traced H) fuel64 input w).2.2.1) := by
  unfold MultiPart.parse
  have hc : (traced H).count = H.count := rfl
  rw [hc]
  split
  · split <;> rfl
  · rw [rawInputLoop_traced H _ _ input w]
    rcases rawInputLoop (traced H) ⟨m.contentLength, m.boundary, S⟩ (List.range H.count) input w with
      ⟨(e | (_ | r)), s1, w1⟩
    · rfl
    · simp only
      cases emptyQueryDict C S with
      | error e => rfl
      | ok u =>
        simp only
        have := partsLoop_traced H C S fuel64 (b!"--" ++ m.boundary)
          ((LazyStream.mk' (⟨s1, m.chunkSize⟩ : ChunkIter ρ)).size + 1)
          (LazyStream.mk' ⟨s1, m.chunkSize⟩) { world := w1, counters := List.replicate H.count 0 }
        have e1 : PState.untrace ({ world := w1, counters := List.replicate H.count 0 } :
            PState (σ × List (Ev F)) F) = { world := w1.1, counters := List.replicate H.count 0 } := rfl
        rw [e1] at this
        rw [this]
        rcases partsLoop C S (traced H) fuel64 (b!"--" ++ m.boundary)
          ((LazyStream.mk' (⟨s1, m.chunkSize⟩ : ChunkIter ρ)).size + 1)
          (LazyStream.mk' ⟨s1, m.chunkSize⟩) { world := w1, counters := List.replicate H.count 0 } with
          ⟨(e | _), body, st⟩
        · by_cases he : ∃ b, e = .stopUpload b
          · obtain ⟨b, rfl⟩ := he
            simp only
            have e2 : st.untrace.world = st.world.1 := rfl
            rw [e2, closeFiles_traced H _ st.world]
            rcases closeFiles (traced H) (List.range H.count) st.world with ⟨(e | _), w2⟩
            · rfl
            · simp only
              split
              · exact finishParse_traced H _ { st with world := w2 }
              · rcases exhaust body.producer.flo with ⟨(e | _), s3⟩
                · rfl
                · exact finishParse_traced H _ { st with world := w2 }
          · cases e <;> first | rfl | exact absurd ⟨_, rfl⟩ he
        · simp only
          rcases exhaust body.producer.flo with ⟨(e | _), s3⟩
          · rfl
          · exact finishParse_traced H _ st
    · rfl

end
end Verif
