import Verif.Proofs.Noted
/-! Exceptions of upload handlers that the parser does not handle end the parse. -/

namespace Verif
open Spec

/-- Either everything is still well, or the call ended in the exception `e`, which is the one that happened. -/
def Told {σ α : Type} (Q : σ → Prop) (B : Exc → σ → Prop) (P : Exc → Prop) (r : Except Exc α) (w : σ) : Prop :=
  Q w ∨ ∃ e, P e ∧ r = .error e ∧ B e w

/-- The handlers are well or have just raised an exception that does not steer the parser. -/
structure HandlerOps.Tells {ρ σ F : Type} (H : HandlerOps ρ σ F) (Q : σ → Prop) (B : Exc → σ → Prop) : Prop where
  raw : ∀ i a s w, Q w → Told Q B (fun _ => True) (H.rawInput i a s w).1 (H.rawInput i a s w).2.2
  newFile : ∀ i a w, Q w →
    Told Q B (fun e => e ≠ .stopFutureHandlers ∧ e ≠ .skipFile ∧ ∀ b, e ≠ .stopUpload b) (H.newFile i a w).1 (H.newFile i a w).2
  receive : ∀ i d n w, Q w →
    Told Q B (fun e => e ≠ .skipFile ∧ ∀ b, e ≠ .stopUpload b) (H.receive i d n w).1 (H.receive i d n w).2
  complete : ∀ i n w, Q w →
    Told Q B (fun e => ∀ b, e ≠ .stopUpload b) (H.fileComplete i n w).1 (H.fileComplete i n w).2
  upload : ∀ i w, Q w → Told Q B (fun _ => True) (H.uploadComplete i w).1 (H.uploadComplete i w).2
  close : ∀ i w, Q w → Told Q B (fun e => ∀ b, e ≠ .stopUpload b) (H.close i w).1 (H.close i w).2

section
variable {ρ σ F τ : Type} [Producer τ] {H : HandlerOps ρ σ F} {Q : σ → Prop} {B : Exc → σ → Prop}

theorem Told.ok {α : Type} {P : Exc → Prop} {a : α} {w : σ} (h : Told Q B P (.ok a) w) : Q w := by
  rcases h with h | ⟨e, _, h, _⟩
  · exact h
  · cases h

theorem Told.err {α β : Type} {P R : Exc → Prop} (hPR : ∀ e, P e → R e) {e : Exc} {w : σ}
    (h : Told Q B P (.error e : Except Exc α) w) : Told Q B R (.error e : Except Exc β) w := by
  rcases h with h | ⟨e', h1, h2, h3⟩
  · exact .inl h
  · cases h2
    exact .inr ⟨e, hPR _ h1, rfl, h3⟩

theorem newFiles_told (hk : H.Tells Q B) (a : NewFileArgs) : ∀ (is : List Nat) (w : σ), Q w →
    Told Q B (fun e => e ≠ .skipFile ∧ ∀ b, e ≠ .stopUpload b) (newFiles H a is w).1 (newFiles H a is w).2 := by
  intro is
  induction is with
  | nil => intro w h; exact .inl h
  | cons i is ih =>
    intro w h
    have := hk.newFile i a w h
    unfold newFiles
    generalize H.newFile i a w = z at *
    rcases z with ⟨(e | _), w'⟩
    · by_cases he : e = .stopFutureHandlers
      · subst he
        rcases this with h | ⟨e, h1, h2, _⟩
        · exact .inl h
        · cases h2
          exact absurd rfl h1.1
      · have h2 : Told Q B (fun e => e ≠ .skipFile ∧ ∀ b, e ≠ .stopUpload b) (.error e : Except Exc Unit) w' :=
          this.err (fun _ h => h.2)
        cases e <;> first | exact h2 | exact absurd rfl he
    · exact ih w' this.ok

theorem feedChunk_told (hk : H.Tells Q B) : ∀ (is : List Nat) (d : Bytes) (cs : List Nat) (w : σ), Q w →
    Told Q B (fun e => e ≠ .skipFile ∧ ∀ b, e ≠ .stopUpload b) (feedChunk H is d cs w).1 (feedChunk H is d cs w).2.2 := by
  intro is
  induction is with
  | nil => intro d cs w h; exact .inl h
  | cons i is ih =>
    intro d cs w h
    have := hk.receive i d (cs.getD i 0) w h
    unfold feedChunk
    generalize H.receive i d (cs.getD i 0) w = z at *
    rcases z with ⟨(e | (_ | d')), w'⟩
    · exact this.err (fun _ h => h)
    · exact .inl this.ok
    · exact ih _ _ _ this.ok

theorem completeLoop_told (hk : H.Tells Q B) (cs : List Nat) : ∀ (is : List Nat) (w : σ), Q w →
    Told Q B (fun e => ∀ b, e ≠ .stopUpload b) (completeLoop H cs is w).1 (completeLoop H cs is w).2 := by
  intro is
  induction is with
  | nil => intro w h; exact .inl h
  | cons i is ih =>
    intro w h
    have h1 := hk.complete i (cs.getD i 0) w h
    unfold completeLoop
    generalize H.fileComplete i (cs.getD i 0) w = z at *
    rcases z with ⟨(e | (_ | f)), w'⟩
    · exact h1.err (fun _ h => h)
    · exact ih w' h1.ok
    · simp only
      split
      · exact .inl h1.ok
      · exact ih w' h1.ok

theorem closeFiles_told (hk : H.Tells Q B) : ∀ (is : List Nat) (w : σ), Q w →
    Told Q B (fun e => ∀ b, e ≠ .stopUpload b) (closeFiles H is w).1 (closeFiles H is w).2 := by
  intro is
  induction is with
  | nil => intro w h; exact .inl h
  | cons i is ih =>
    intro w h
    have := hk.close i w h
    unfold closeFiles
    generalize H.close i w = z at *
    rcases z with ⟨(e | _), w'⟩
    · exact this.err (fun _ h => h)
    · exact ih w' this.ok

theorem uploadCompleteLoop_told (hk : H.Tells Q B) : ∀ (is : List Nat) (w : σ), Q w →
    Told Q B (fun _ => True) (uploadCompleteLoop H is w).1 (uploadCompleteLoop H is w).2 := by
  intro is
  induction is with
  | nil => intro w h; exact .inl h
  | cons i is ih =>
    intro w h
    have := hk.upload i w h
    unfold uploadCompleteLoop
    generalize H.uploadComplete i w = z at *
    rcases z with ⟨(e | b), w'⟩
    · exact this.err (fun _ h => h)
    · cases b
      · exact ih w' this.ok
      · exact .inl this.ok

theorem rawInputLoop_told (hk : H.Tells Q B) (a : RawArgs) : ∀ (is : List Nat) (s : LazyStream ρ) (w : σ), Q w →
    Told Q B (fun _ => True) (rawInputLoop H a is s w).1 (rawInputLoop H a is s w).2.2 := by
  intro is
  induction is with
  | nil => intro s w h; exact .inl h
  | cons i is ih =>
    intro s w h
    have := hk.raw i a s w h
    unfold rawInputLoop
    generalize H.rawInput i a s w = z at *
    rcases z with ⟨(e | (_ | r)), s', w'⟩
    · exact this.err (fun _ h => h)
    · exact ih s' w' this.ok
    · exact .inl this.ok

theorem fileLoop_told (hk : H.Tells Q B) (fuel64 : Nat) (b64 : Bool) : ∀ (fuel : Nat) (s : LazyStream τ)
    (cs : List Nat) (w : σ), Q w → Told Q B (fun e => e ≠ .skipFile ∧ ∀ b, e ≠ .stopUpload b)
      (fileLoop H fuel64 b64 fuel s cs w).1 (fileLoop H fuel64 b64 fuel s cs w).2.2.2 := by
  intro fuel
  induction fuel with
  | zero => intro s cs w h; exact .inl h
  | succ fuel ih =>
    intro s cs w h
    unfold fileLoop
    rcases s.next with ⟨(e | (_ | c)), s1⟩
    · exact .inl h
    · exact .inl h
    · simp only
      rcases fileChunk fuel64 b64 c s1 with ⟨(e | d), s2⟩
      · exact .inl h
      · simp only
        have := feedChunk_told hk (List.range H.count) d cs w h
        generalize feedChunk H (List.range H.count) d cs w = z at *
        rcases z with ⟨(e | _), cs1, w1⟩
        · exact this.err (fun _ h => h)
        · exact ih s2 cs1 w1 this.ok

theorem receiveFile_told (hk : H.Tells Q B) (fuel64 : Nat) (a : NewFileArgs) (s : LazyStream τ) (w : σ) (h : Q w) :
    Told Q B (fun e => e ≠ .skipFile ∧ ∀ b, e ≠ .stopUpload b) (receiveFile H fuel64 a s w).1
      (receiveFile H fuel64 a s w).2.2.2 := by
  unfold receiveFile
  simp only
  have := newFiles_told hk a (List.range H.count) w h
  generalize newFiles H a (List.range H.count) w = z at *
  rcases z with ⟨(e | _), w1⟩
  · exact this.err (fun _ h => h)
  · exact fileLoop_told hk fuel64 _ _ s _ w1 this.ok

omit [Producer τ] in
theorem completeOld_told (hk : H.Tells Q B) (st : PState σ F) (h : Q st.world) :
    Told Q B (fun e => ∀ b, e ≠ .stopUpload b) (completeOld H st).1 (completeOld H st).2.world := by
  obtain ⟨world, post, files, oldField, counters, numBytes, numKeys⟩ := st
  unfold completeOld
  cases oldField with
  | none => exact .inl h
  | some n =>
    cases n with
    | nil => exact .inl h
    | cons c n =>
      simp only [handleFileComplete]
      have := completeLoop_told hk counters (List.range H.count) world h
      generalize completeLoop H counters (List.range H.count) world = z at *
      rcases z with ⟨(e | (_ | f)), w1⟩
      · exact this.err (fun _ h => h)
      · exact .inl this.ok
      · exact .inl this.ok

theorem handlePart_told (hk : H.Tells Q B) (C : Codecs) (S : Settings) (fuel64 : Nat) (t : ItemType) (md : MetaData)
    (s : LazyStream τ) (st : PState σ F) (h : Q st.world) :
    Told Q B (fun e => ∀ b, e ≠ .stopUpload b) (handlePart C S H fuel64 t md s st).1
      (handlePart C S H fuel64 t md s st).2.2.world := by
  unfold handlePart
  have h1 := completeOld_told hk st h
  generalize completeOld H st = z at *
  rcases z with ⟨(e | _), st1⟩
  · exact h1.err (fun _ h => h)
  replace h1 := h1.ok
  simp only at h1 ⊢
  cases partName md with
  | none => exact .inl h1
  | some dn =>
    obtain ⟨d, n⟩ := dn
    simp only
    cases forceText n.strip with
    | error e => exact .inl h1
    | ok name =>
      cases t with
      | raw => exact .inl h1
      | field =>
        simp only [handleField]
        split
        · exact .inl h1
        · generalize s.read (Option.map _ S.dataMaxMemory) = rd
          rcases rd with ⟨(e | raw), s1⟩
          · exact .inl h1
          · simp only
            left
            have e : (storeField C S name (transferEnc md) md raw { st1 with numKeys := st1.numKeys + 1 }).2.world =
                st1.world := by
              unfold storeField
              simp only
              split
              · rfl
              · split
                · rfl
                · split <;> rfl
            rw [e]
            exact h1
      | file =>
        simp only [handleFile]
        cases hd : dispositionFileName d with
        | error e => exact .inl h1
        | ok fn =>
          simp only
          split
          · exact .inl h1
          · have h2 := receiveFile_told hk fuel64 (fileArgs name fn (transferEnc md) md) s st1.world h1
            generalize receiveFile H fuel64 (fileArgs name fn (transferEnc md) md) s st1.world = z at *
            rcases z with ⟨(e | _), s1, cs, w1⟩
            · by_cases he : e = .skipFile
              · subst he
                simp only at h2 ⊢
                have h2' : Q w1 := by
                  rcases h2 with h | ⟨e, h1, h2, _⟩
                  · exact h
                  · cases h2
                    exact absurd rfl h1.1
                have h3 := closeFiles_told hk (List.range H.count) w1 h2'
                generalize closeFiles H (List.range H.count) w1 = z at *
                rcases z with ⟨(e | _), w2⟩
                · exact h3.err (fun _ h => h)
                · simp only
                  rcases exhaust s1 with ⟨(e | _), s2⟩ <;> exact .inl h3.ok
              · have h3 : Told Q B (fun e => ∀ b, e ≠ .stopUpload b) (.error e : Except Exc Unit) w1 :=
                  h2.err (fun _ h => h.2)
                cases e <;> first | exact h3 | exact absurd rfl he
            · exact .inl h2.ok

end

section
variable {ρ σ F : Type} [Producer ρ] {H : HandlerOps ρ σ F} {Q : σ → Prop} {B : Exc → σ → Prop}

theorem partsLoop_told (hk : H.Tells Q B) (C : Codecs) (S : Settings) (fuel64 : Nat) (sep : Bytes) :
    ∀ (fuel : Nat) (s : LazyStream (ChunkIter ρ)) (st : PState σ F), Q st.world →
    Told Q B (fun e => ∀ b, e ≠ .stopUpload b) (partsLoop C S H fuel64 sep fuel s st).1
      (partsLoop C S H fuel64 sep fuel s st).2.2.world := by
  intro fuel
  induction fuel with
  | zero => intro s st h; exact .inl h
  | succ fuel ih =>
    intro s st h
    unfold partsLoop
    rcases nextPart s sep with ⟨(e | (_ | sub)), s1⟩
    · exact .inl h
    · exact .inl h
    · simp only
      rcases parseBoundaryStream C sub 1024 with ⟨(e | ⟨t, md⟩), sub1⟩
      · exact .inl h
      · simp only
        have := handlePart_told hk C S fuel64 t md sub1 st h
        generalize handlePart C S H fuel64 t md sub1 st = z at *
        rcases z with ⟨(e | _), sub2, st2⟩
        · exact this.err (fun _ h => h)
        · exact ih _ st2 this.ok

theorem textPartsLoop_told (hk : H.Tells Q B) (C : Codecs) (S : Settings) (fuel64 : Nat) (sep : Bytes) :
    ∀ (fuel : Nat) (s : LazyStream (ChunkIter ρ)) (st : PState σ F), Q st.world →
    Told Q B (fun e => ∀ b, e ≠ .stopUpload b) (textPartsLoop C S H fuel64 sep fuel s st).1
      (textPartsLoop C S H fuel64 sep fuel s st).2.2.world := by
  intro fuel
  induction fuel with
  | zero => intro s st h; exact .inl h
  | succ fuel ih =>
    intro s st h
    unfold textPartsLoop
    rcases nextTextPart s sep with ⟨(e | (_ | sub)), s1⟩
    · exact .inl h
    · exact .inl h
    · simp only
      rcases parseBoundaryStream C sub 1024 with ⟨(e | ⟨t, md⟩), sub1⟩
      · exact .inl h
      · simp only
        have := handlePart_told hk C S fuel64 t md sub1 st h
        generalize handlePart C S H fuel64 t md sub1 st = z at *
        rcases z with ⟨(e | _), sub2, st2⟩
        · exact this.err (fun _ h => h)
        · exact ih _ st2 this.ok

omit [Producer ρ] in
theorem finishParse_told (hk : H.Tells Q B) (s : LazyStream ρ) (st : PState σ F) (h : Q st.world) :
    Told Q B (fun _ => True) (finishParse H s st).1 (finishParse H s st).2.2 := by
  unfold finishParse
  have := uploadCompleteLoop_told hk (List.range H.count) st.world h
  generalize uploadCompleteLoop H (List.range H.count) st.world = z at *
  rcases z with ⟨(e | _), w⟩
  · exact this.err (fun _ h => h)
  · exact .inl this.ok

theorem parse_told (hk : H.Tells Q B) (C : Codecs) (S : Settings) (fuel64 : Nat) (m : MultiPart)
    (input : LazyStream ρ) (w : σ) (h : Q w) :
    Told Q B (fun _ => True) (m.parse C S H fuel64 input w).1 (m.parse C S H fuel64 input w).2.2 := by
  unfold MultiPart.parse
  split
  · split <;> exact .inl h
  · have hr := rawInputLoop_told hk { contentLength := m.contentLength, boundary := m.boundary, settings := S }
      (List.range H.count) input w h
    generalize rawInputLoop H { contentLength := m.contentLength, boundary := m.boundary, settings := S }
      (List.range H.count) input w = z at *
    rcases z with ⟨(e | (_ | r)), input1, w1⟩
    · exact hr.err (fun _ h => h)
    · replace hr := hr.ok
      simp only at hr ⊢
      cases emptyQueryDict C S with
      | error e => exact .inl hr
      | ok u =>
        simp only
        have := partsLoop_told hk C S fuel64 (b!"--" ++ m.boundary)
          ((LazyStream.mk' (⟨input1, m.chunkSize⟩ : ChunkIter ρ)).size + 1)
          (LazyStream.mk' ⟨input1, m.chunkSize⟩) { world := w1, counters := List.replicate H.count 0 } hr
        generalize partsLoop C S H fuel64 (b!"--" ++ m.boundary)
          ((LazyStream.mk' (⟨input1, m.chunkSize⟩ : ChunkIter ρ)).size + 1)
          (LazyStream.mk' ⟨input1, m.chunkSize⟩) { world := w1, counters := List.replicate H.count 0 } = z at *
        rcases z with ⟨(e | _), body, st⟩
        · by_cases he : ∃ b, e = .stopUpload b
          · obtain ⟨b, rfl⟩ := he
            simp only at this ⊢
            have hs : Q st.world := by
              rcases this with h | ⟨e, h1, h2, _⟩
              · exact h
              · cases h2
                exact absurd rfl (h1 _)
            have h2 := closeFiles_told hk (List.range H.count) st.world hs
            generalize closeFiles H (List.range H.count) st.world = z at *
            rcases z with ⟨(e | _), w2⟩
            · exact h2.err (fun _ _ => trivial)
            · replace h2 := h2.ok
              simp only at h2 ⊢
              split
              · exact finishParse_told hk _ { st with world := w2 } h2
              · rcases exhaust body.producer.flo with ⟨(e | _), s3⟩
                · exact .inl h2
                · exact finishParse_told hk _ { st with world := w2 } h2
          · have h3 : Told Q B (fun _ => True) (.error e : Except Exc (MVD PostItem × MVD F)) st.world :=
              this.err (fun _ _ => trivial)
            cases e <;> first | exact h3 | exact absurd ⟨_, rfl⟩ he
        · simp only
          rcases exhaust body.producer.flo with ⟨(e | _), s3⟩
          · exact .inl this.ok
          · exact finishParse_told hk _ st this.ok
    · exact .inl hr.ok

theorem parseText_told (hk : H.Tells Q B) (C : Codecs) (S : Settings) (fuel64 : Nat) (m : MultiPart)
    (input : LazyStream ρ) (w : σ) (h : Q w) :
    Told Q B (fun _ => True) (m.parseText C S H fuel64 input w).1 (m.parseText C S H fuel64 input w).2.2 := by
  unfold MultiPart.parseText
  split
  · split <;> exact .inl h
  · have hr := rawInputLoop_told hk { contentLength := m.contentLength, boundary := m.boundary, settings := S }
      (List.range H.count) input w h
    generalize rawInputLoop H { contentLength := m.contentLength, boundary := m.boundary, settings := S }
      (List.range H.count) input w = z at *
    rcases z with ⟨(e | (_ | r)), input1, w1⟩
    · exact hr.err (fun _ h => h)
    · replace hr := hr.ok
      simp only at hr ⊢
      cases emptyQueryDict C S with
      | error e => exact .inl hr
      | ok u =>
        simp only
        have := textPartsLoop_told hk C S fuel64 (b!"--" ++ m.boundary)
          ((LazyStream.mk' (⟨input1, m.chunkSize⟩ : ChunkIter ρ)).size + 1)
          (LazyStream.mk' ⟨input1, m.chunkSize⟩) { world := w1, counters := List.replicate H.count 0 } hr
        generalize textPartsLoop C S H fuel64 (b!"--" ++ m.boundary)
          ((LazyStream.mk' (⟨input1, m.chunkSize⟩ : ChunkIter ρ)).size + 1)
          (LazyStream.mk' ⟨input1, m.chunkSize⟩) { world := w1, counters := List.replicate H.count 0 } = z at *
        rcases z with ⟨(e | _), body, st⟩
        · by_cases he : ∃ b, e = .stopUpload b
          · obtain ⟨b, rfl⟩ := he
            simp only at this ⊢
            have hs : Q st.world := by
              rcases this with h | ⟨e, h1, h2, _⟩
              · exact h
              · cases h2
                exact absurd rfl (h1 _)
            have h2 := closeFiles_told hk (List.range H.count) st.world hs
            generalize closeFiles H (List.range H.count) st.world = z at *
            rcases z with ⟨(e | _), w2⟩
            · exact h2.err (fun _ _ => trivial)
            · replace h2 := h2.ok
              simp only at h2 ⊢
              split
              · exact finishParse_told hk _ { st with world := w2 } h2
              · rcases exhaust body.producer.flo with ⟨(e | _), s3⟩
                · exact .inl h2
                · exact finishParse_told hk _ { st with world := w2 } h2
          · have h3 : Told Q B (fun _ => True) (.error e : Except Exc (MVD PostItem × MVD F)) st.world :=
              this.err (fun _ _ => trivial)
            cases e <;> first | exact h3 | exact absurd ⟨_, rfl⟩ he
        · simp only
          rcases exhaust body.producer.flo with ⟨(e | _), s3⟩
          · exact .inl this.ok
          · exact finishParse_told hk _ st this.ok
    · exact .inl hr.ok

theorem run_told (hk : H.Tells Q B) (C : Codecs) (S : Settings) (fuel64 : Nat) (text : Bool) (m : MultiPart)
    (input : LazyStream ρ) (w : σ) (h : Q w) :
    Told Q B (fun _ => True) (m.run C S H fuel64 text input w).1 (m.run C S H fuel64 text input w).2.2 := by
  unfold MultiPart.run
  cases text
  · exact parse_told hk C S fuel64 m input w h
  · exact parseText_told hk C S fuel64 m input w h

end
end Verif
