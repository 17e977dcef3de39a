import Verif.Proofs.ParseInv
/-! Handlers that do what other handlers do until they fail. -/

namespace Verif
open Spec

/-- A call either ended in one of the exceptions `X`, or did what `y` did. -/
def Falter {σ' σ α : Type} (π : σ' → σ) (X : Exc → Prop) (x : Res σ' α) (y : Res σ α) : Prop :=
  (∃ e, X e ∧ x.1 = .error e) ∨ (x.1, π x.2) = y

/-- `H'` does what `H` does on the image of its world, except that any of its methods may raise one of `X`, whatever
it leaves behind. -/
structure HandlerOps.Falters {ρ σ' σ F : Type} (H' : HandlerOps ρ σ' F) (π : σ' → σ) (X : Exc → Prop)
    (H : HandlerOps ρ σ F) : Prop where
  count : H'.count = H.count
  truthy : ∀ f w, H'.truthy f w = H.truthy f (π w)
  raw : ∀ i a s w, (∃ e, X e ∧ (H'.rawInput i a s w).1 = .error e) ∨
    ((H'.rawInput i a s w).1, (H'.rawInput i a s w).2.1, π (H'.rawInput i a s w).2.2) = H.rawInput i a s (π w)
  newFile : ∀ i a w, Falter π X (H'.newFile i a w) (H.newFile i a (π w))
  receive : ∀ i d n w, Falter π X (H'.receive i d n w) (H.receive i d n (π w))
  complete : ∀ i n w, Falter π X (H'.fileComplete i n w) (H.fileComplete i n (π w))
  upload : ∀ i w, Falter π X (H'.uploadComplete i w) (H.uploadComplete i (π w))
  close : ∀ i w, Falter π X (H'.close i w) (H.close i (π w))
  plain : ∀ e, X e → e ≠ .stopFutureHandlers ∧ e ≠ .skipFile ∧ ∀ b, e ≠ .stopUpload b

/-- The state of the parser over the image of the world. -/
def PState.over {σ' σ F : Type} (π : σ' → σ) (st : PState σ' F) : PState σ F :=
  { world := π st.world, post := st.post, files := st.files, oldField := st.oldField,
    counters := st.counters, numBytes := st.numBytes, numKeys := st.numKeys }

section
variable {ρ σ' σ F τ : Type} [Producer τ] {H' : HandlerOps ρ σ' F} {H : HandlerOps ρ σ F} {π : σ' → σ} {X : Exc → Prop}

theorem newFiles_falter (hk : H'.Falters π X H) (a : NewFileArgs) : ∀ (is : List Nat) (w : σ'),
    Falter π X (newFiles H' a is w) (newFiles H a is (π w)) := by
  intro is
  induction is with
  | nil => intro w; exact .inr rfl
  | cons i is ih =>
    intro w
    have := hk.newFile i a w
    unfold newFiles
    generalize H'.newFile i a w = z at *
    rcases z with ⟨r, w'⟩
    rcases this with ⟨e, hx, he⟩ | h
    · simp only at he
      subst he
      have := hk.plain e hx
      cases e <;> first | exact .inl ⟨_, hx, rfl⟩ | exact absurd rfl this.1
    · rw [← h]
      rcases r with e | _
      · cases e <;> exact .inr rfl
      · exact ih w'

theorem feedChunk_falter (hk : H'.Falters π X H) : ∀ (is : List Nat) (d : Bytes) (cs : List Nat) (w : σ'),
    (∃ e, X e ∧ (feedChunk H' is d cs w).1 = .error e) ∨
    ((feedChunk H' is d cs w).1, (feedChunk H' is d cs w).2.1, π (feedChunk H' is d cs w).2.2) =
      feedChunk H is d cs (π w) := by
  intro is
  induction is with
  | nil => intro d cs w; exact .inr rfl
  | cons i is ih =>
    intro d cs w
    have := hk.receive i d (cs.getD i 0) w
    unfold feedChunk
    generalize H'.receive i d (cs.getD i 0) w = z at *
    rcases z with ⟨r, w'⟩
    rcases this with ⟨e, hx, he⟩ | h
    · simp only at he
      subst he
      exact .inl ⟨_, hx, rfl⟩
    · rw [← h]
      rcases r with e | (_ | d')
      · exact .inr rfl
      · exact .inr rfl
      · exact ih _ _ w'

theorem completeLoop_falter (hk : H'.Falters π X H) (cs : List Nat) : ∀ (is : List Nat) (w : σ'),
    Falter π X (completeLoop H' cs is w) (completeLoop H cs is (π w)) := by
  intro is
  induction is with
  | nil => intro w; exact .inr rfl
  | cons i is ih =>
    intro w
    have := hk.complete i (cs.getD i 0) w
    unfold completeLoop
    generalize H'.fileComplete i (cs.getD i 0) w = z at *
    rcases z with ⟨r, w'⟩
    rcases this with ⟨e, hx, he⟩ | h
    · simp only at he
      subst he
      exact .inl ⟨_, hx, rfl⟩
    · rw [← h]
      rcases r with e | (_ | f)
      · exact .inr rfl
      · exact ih w'
      · simp only [hk.truthy]
        split
        · exact .inr rfl
        · exact ih w'

theorem closeFiles_falter (hk : H'.Falters π X H) : ∀ (is : List Nat) (w : σ'),
    Falter π X (closeFiles H' is w) (closeFiles H is (π w)) := by
  intro is
  induction is with
  | nil => intro w; exact .inr rfl
  | cons i is ih =>
    intro w
    have := hk.close i w
    unfold closeFiles
    generalize H'.close i w = z at *
    rcases z with ⟨r, w'⟩
    rcases this with ⟨e, hx, he⟩ | h
    · simp only at he
      subst he
      exact .inl ⟨_, hx, rfl⟩
    · rw [← h]
      rcases r with e | _
      · exact .inr rfl
      · exact ih w'

theorem uploadCompleteLoop_falter (hk : H'.Falters π X H) : ∀ (is : List Nat) (w : σ'),
    Falter π X (uploadCompleteLoop H' is w) (uploadCompleteLoop H is (π w)) := by
  intro is
  induction is with
  | nil => intro w; exact .inr rfl
  | cons i is ih =>
    intro w
    have := hk.upload i w
    unfold uploadCompleteLoop
    generalize H'.uploadComplete i w = z at *
    rcases z with ⟨r, w'⟩
    rcases this with ⟨e, hx, he⟩ | h
    · simp only at he
      subst he
      exact .inl ⟨_, hx, rfl⟩
    · rw [← h]
      rcases r with e | b
      · exact .inr rfl
      · cases b
        · exact ih w'
        · exact .inr rfl

theorem rawInputLoop_falter (hk : H'.Falters π X H) (a : RawArgs) : ∀ (is : List Nat) (s : LazyStream ρ) (w : σ'),
    (∃ e, X e ∧ (rawInputLoop H' a is s w).1 = .error e) ∨
    ((rawInputLoop H' a is s w).1, (rawInputLoop H' a is s w).2.1, π (rawInputLoop H' a is s w).2.2) =
      rawInputLoop H a is s (π w) := by
  intro is
  induction is with
  | nil => intro s w; exact .inr rfl
  | cons i is ih =>
    intro s w
    have := hk.raw i a s w
    unfold rawInputLoop
    generalize H'.rawInput i a s w = z at *
    rcases z with ⟨r, s', w'⟩
    rcases this with ⟨e, hx, he⟩ | h
    · simp only at he
      subst he
      exact .inl ⟨_, hx, rfl⟩
    · rw [← h]
      rcases r with e | (_ | r)
      · exact .inr rfl
      · exact ih s' w'
      · exact .inr rfl

theorem fileLoop_falter (hk : H'.Falters π X H) (fuel64 : Nat) (b64 : Bool) : ∀ (fuel : Nat) (s : LazyStream τ)
    (cs : List Nat) (w : σ'),
    (∃ e, X e ∧ (fileLoop H' fuel64 b64 fuel s cs w).1 = .error e) ∨
    ((fileLoop H' fuel64 b64 fuel s cs w).1, (fileLoop H' fuel64 b64 fuel s cs w).2.1,
     (fileLoop H' fuel64 b64 fuel s cs w).2.2.1, π (fileLoop H' fuel64 b64 fuel s cs w).2.2.2) =
      fileLoop H fuel64 b64 fuel s cs (π w) := by
  intro fuel
  induction fuel with
  | zero => intro s cs w; exact .inr rfl
  | succ fuel ih =>
    intro s cs w
    unfold fileLoop
    rcases s.next with ⟨(e | (_ | c)), s1⟩
    · exact .inr rfl
    · exact .inr rfl
    · simp only
      rcases fileChunk fuel64 b64 c s1 with ⟨(e | d), s2⟩
      · exact .inr rfl
      · simp only
        have := feedChunk_falter hk (List.range H.count) d cs w
        rw [hk.count]
        generalize feedChunk H' (List.range H.count) d cs w = z at *
        rcases z with ⟨r, cs1, w1⟩
        rcases this with ⟨e, hx, he⟩ | h
        · simp only at he
          subst he
          exact .inl ⟨_, hx, rfl⟩
        · rw [← h]
          rcases r with e | _
          · exact .inr rfl
          · exact ih s2 cs1 w1

theorem receiveFile_falter (hk : H'.Falters π X H) (fuel64 : Nat) (a : NewFileArgs) (s : LazyStream τ) (w : σ') :
    (∃ e, X e ∧ (receiveFile H' fuel64 a s w).1 = .error e) ∨
    ((receiveFile H' fuel64 a s w).1, (receiveFile H' fuel64 a s w).2.1,
     (receiveFile H' fuel64 a s w).2.2.1, π (receiveFile H' fuel64 a s w).2.2.2) =
      receiveFile H fuel64 a s (π w) := by
  unfold receiveFile
  simp only
  have := newFiles_falter hk a (List.range H.count) w
  rw [hk.count]
  generalize newFiles H' a (List.range H.count) w = z at *
  rcases z with ⟨r, w1⟩
  rcases this with ⟨e, hx, he⟩ | h
  · simp only at he
    subst he
    exact .inl ⟨_, hx, rfl⟩
  · rw [← h]
    rcases r with e | _
    · exact .inr rfl
    · exact fileLoop_falter hk fuel64 _ _ s _ w1

omit [Producer τ] in
theorem completeOld_falter (hk : H'.Falters π X H) (st : PState σ' F) :
    (∃ e, X e ∧ (completeOld H' st).1 = .error e) ∨
    ((completeOld H' st).1, (completeOld H' st).2.over π) = completeOld H (st.over π) := by
  obtain ⟨world, post, files, oldField, counters, numBytes, numKeys⟩ := st
  unfold completeOld
  simp only [PState.over]
  cases oldField with
  | none => exact .inr rfl
  | some n =>
    cases n with
    | nil => exact .inr rfl
    | cons c n =>
      simp only [handleFileComplete]
      have := completeLoop_falter hk counters (List.range H.count) world
      rw [hk.count]
      generalize completeLoop H' counters (List.range H.count) world = z at *
      rcases z with ⟨r, w1⟩
      rcases this with ⟨e, hx, he⟩ | h
      · simp only at he
        subst he
        exact .inl ⟨_, hx, rfl⟩
      · rw [← h]
        rcases r with e | (_ | f) <;> exact .inr rfl

theorem storeField_over (C : Codecs) (S : Settings) (name te md raw) (st : PState σ' F) :
    storeField C S name te md raw (st.over π) =
      ((storeField C S name te md raw st).1, (storeField C S name te md raw st).2.over π) := by
  obtain ⟨world, post, files, oldField, counters, numBytes, numKeys⟩ := st
  simp only [PState.over]
  unfold storeField
  simp only
  split
  · rfl
  · by_cases hb : S.dataMaxMemory.any
      (fun x => decide (x < ((numBytes + raw.length + (name.length + 2) : Nat) : Int))) = true
    · simp only [hb, if_true]
    · simp only [hb, if_false, Bool.false_eq_true]
      cases postAppend C S post name _ <;> rfl

theorem handlePart_falter (hk : H'.Falters π X H) (C : Codecs) (S : Settings) (fuel64 : Nat) (t : ItemType)
    (md : MetaData) (s : LazyStream τ) (st : PState σ' F) :
    (∃ e, X e ∧ (handlePart C S H' fuel64 t md s st).1 = .error e) ∨
    ((handlePart C S H' fuel64 t md s st).1, (handlePart C S H' fuel64 t md s st).2.1,
     (handlePart C S H' fuel64 t md s st).2.2.over π) = handlePart C S H fuel64 t md s (st.over π) := by
  unfold handlePart
  have h1 := completeOld_falter hk st
  generalize completeOld H' st = z at *
  rcases z with ⟨r, st1⟩
  rcases h1 with ⟨e, hx, he⟩ | h1
  · simp only at he
    subst he
    exact .inl ⟨_, hx, rfl⟩
  rw [← h1]
  rcases r with e | _
  · exact .inr rfl
  simp only
  cases partName md with
  | none => exact .inr rfl
  | some dn =>
    obtain ⟨d, n⟩ := dn
    simp only
    cases forceText n.strip with
    | error e => exact .inr rfl
    | ok name =>
      cases t with
      | raw => exact .inr rfl
      | field =>
        simp only [handleField]
        have h1 : (st1.over π).numKeys = st1.numKeys := rfl
        have h2 : (st1.over π).numBytes = st1.numBytes := rfl
        rw [h1, h2]
        split
        · exact .inr rfl
        · generalize s.read (Option.map _ S.dataMaxMemory) = rd
          rcases rd with ⟨(e | raw), s1⟩
          · exact .inr rfl
          · simp only
            have := storeField_over (π := π) C S name (transferEnc md) md raw { st1 with numKeys := st1.numKeys + 1 }
            exact .inr (congrArg (fun x => (x.1, s1, x.2)) this).symm
      | file =>
        simp only [handleFile]
        cases dispositionFileName d with
        | error e => exact .inr rfl
        | ok fn =>
          simp only
          split
          · exact .inr rfl
          · have e : (st1.over π).world = π st1.world := rfl
            have h2 := receiveFile_falter hk fuel64 (fileArgs name fn (transferEnc md) md) s st1.world
            rw [e]
            generalize receiveFile H' fuel64 (fileArgs name fn (transferEnc md) md) s st1.world = z at *
            rcases z with ⟨r, s1, cs, w1⟩
            rcases h2 with ⟨e, hx, he⟩ | h2
            · simp only at he
              subst he
              have := hk.plain e hx
              cases e <;> first | exact .inl ⟨_, hx, rfl⟩ | exact absurd rfl this.2.1
            · rw [← h2]
              rcases r with e | _
              · by_cases he : e = .skipFile
                · subst he
                  simp only
                  have h3 := closeFiles_falter hk (List.range H.count) w1
                  rw [hk.count]
                  generalize closeFiles H' (List.range H.count) w1 = z at *
                  rcases z with ⟨r, w2⟩
                  rcases h3 with ⟨e, hx, he⟩ | h3
                  · simp only at he
                    subst he
                    exact .inl ⟨_, hx, rfl⟩
                  · rw [← h3]
                    rcases r with e | _
                    · exact .inr rfl
                    · simp only
                      rcases exhaust s1 with ⟨(e | _), s2⟩ <;> exact .inr rfl
                · cases e <;> first | exact .inr rfl | exact absurd rfl he
              · exact .inr rfl

end

section
variable {ρ σ' σ F : Type} [Producer ρ] {H' : HandlerOps ρ σ' F} {H : HandlerOps ρ σ F} {π : σ' → σ} {X : Exc → Prop}

theorem partsLoop_falter (hk : H'.Falters π X H) (C : Codecs) (S : Settings) (fuel64 : Nat) (sep : Bytes) :
    ∀ (fuel : Nat) (s : LazyStream (ChunkIter ρ)) (st : PState σ' F),
    (∃ e, X e ∧ (partsLoop C S H' fuel64 sep fuel s st).1 = .error e) ∨
    ((partsLoop C S H' fuel64 sep fuel s st).1, (partsLoop C S H' fuel64 sep fuel s st).2.1,
     (partsLoop C S H' fuel64 sep fuel s st).2.2.over π) = partsLoop C S H fuel64 sep fuel s (st.over π) := by
  intro fuel
  induction fuel with
  | zero => intro s st; exact .inr rfl
  | succ fuel ih =>
    intro s st
    unfold partsLoop
    rcases nextPart s sep with ⟨(e | (_ | sub)), s1⟩
    · exact .inr rfl
    · exact .inr rfl
    · simp only
      rcases parseBoundaryStream C sub 1024 with ⟨(e | ⟨t, md⟩), sub1⟩
      · exact .inr rfl
      · simp only
        have := handlePart_falter hk C S fuel64 t md sub1 st
        generalize handlePart C S H' fuel64 t md sub1 st = z at *
        rcases z with ⟨r, sub2, st2⟩
        rcases this with ⟨e, hx, he⟩ | h
        · simp only at he
          subst he
          exact .inl ⟨_, hx, rfl⟩
        · rw [← h]
          rcases r with e | _
          · exact .inr rfl
          · exact ih _ st2

theorem textPartsLoop_falter (hk : H'.Falters π X H) (C : Codecs) (S : Settings) (fuel64 : Nat) (sep : Bytes) :
    ∀ (fuel : Nat) (s : LazyStream (ChunkIter ρ)) (st : PState σ' F),
    (∃ e, X e ∧ (textPartsLoop C S H' fuel64 sep fuel s st).1 = .error e) ∨
    ((textPartsLoop C S H' fuel64 sep fuel s st).1, (textPartsLoop C S H' fuel64 sep fuel s st).2.1,
     (textPartsLoop C S H' fuel64 sep fuel s st).2.2.over π) = textPartsLoop C S H fuel64 sep fuel s (st.over π) := by
  intro fuel
  induction fuel with
  | zero => intro s st; exact .inr rfl
  | succ fuel ih =>
    intro s st
    unfold textPartsLoop
    rcases nextTextPart s sep with ⟨(e | (_ | sub)), s1⟩
    · exact .inr rfl
    · exact .inr rfl
    · simp only
      rcases parseBoundaryStream C sub 1024 with ⟨(e | ⟨t, md⟩), sub1⟩
      · exact .inr rfl
      · simp only
        have := handlePart_falter hk C S fuel64 t md sub1 st
        generalize handlePart C S H' fuel64 t md sub1 st = z at *
        rcases z with ⟨r, sub2, st2⟩
        rcases this with ⟨e, hx, he⟩ | h
        · simp only at he
          subst he
          exact .inl ⟨_, hx, rfl⟩
        · rw [← h]
          rcases r with e | _
          · exact .inr rfl
          · exact ih _ st2

omit [Producer ρ] in
theorem finishParse_falter (hk : H'.Falters π X H) (s : LazyStream ρ) (st : PState σ' F) :
    (∃ e, X e ∧ (finishParse H' s st).1 = .error e) ∨
    ((finishParse H' s st).1, (finishParse H' s st).2.1, π (finishParse H' s st).2.2) =
      finishParse H s (st.over π) := by
  unfold finishParse
  have e : (st.over π).world = π st.world := rfl
  have := uploadCompleteLoop_falter hk (List.range H.count) st.world
  rw [e, hk.count]
  generalize uploadCompleteLoop H' (List.range H.count) st.world = z at *
  rcases z with ⟨r, w⟩
  rcases this with ⟨e, hx, he⟩ | h
  · simp only at he
    subst he
    exact .inl ⟨_, hx, rfl⟩
  · rw [← h]
    rcases r with e | _ <;> exact .inr rfl

theorem parse_falter (hk : H'.Falters π X H) (C : Codecs) (S : Settings) (fuel64 : Nat) (m : MultiPart)
    (input : LazyStream ρ) (w : σ') :
    (∃ e, X e ∧ (m.parse C S H' fuel64 input w).1 = .error e) ∨
    ((m.parse C S H' fuel64 input w).1, (m.parse C S H' fuel64 input w).2.1,
     π (m.parse C S H' fuel64 input w).2.2) = m.parse C S H fuel64 input (π w) := by
  unfold MultiPart.parse
  rw [hk.count]
  split
  · split <;> exact .inr rfl
  · have hr := rawInputLoop_falter hk { contentLength := m.contentLength, boundary := m.boundary, settings := S }
      (List.range H.count) input w
    generalize rawInputLoop H' { contentLength := m.contentLength, boundary := m.boundary, settings := S }
      (List.range H.count) input w = z at *
    rcases z with ⟨r, input1, w1⟩
    rcases hr with ⟨e, hx, he⟩ | hr
    · simp only at he
      subst he
      exact .inl ⟨_, hx, rfl⟩
    rw [← hr]
    rcases r with e | (_ | r)
    · exact .inr rfl
    · simp only
      cases emptyQueryDict C S with
      | error e => exact .inr rfl
      | ok u =>
        simp only
        have := partsLoop_falter hk C S fuel64 (b!"--" ++ m.boundary)
          ((LazyStream.mk' (⟨input1, m.chunkSize⟩ : ChunkIter ρ)).size + 1)
          (LazyStream.mk' ⟨input1, m.chunkSize⟩) { world := w1, counters := List.replicate H.count 0 }
        have e1 : PState.over π ({ world := w1, counters := List.replicate H.count 0 } : PState σ' F) =
          { world := π w1, counters := List.replicate H.count 0 } := rfl
        rw [e1] at this
        generalize partsLoop C S H' fuel64 (b!"--" ++ m.boundary)
          ((LazyStream.mk' (⟨input1, m.chunkSize⟩ : ChunkIter ρ)).size + 1)
          (LazyStream.mk' ⟨input1, m.chunkSize⟩) { world := w1, counters := List.replicate H.count 0 } = z at *
        rcases z with ⟨r, body, st⟩
        rcases this with ⟨e, hx, he⟩ | h
        · simp only at he
          subst he
          have := hk.plain e hx
          cases e <;> first | exact .inl ⟨_, hx, rfl⟩ | exact absurd rfl (this.2.2 _)
        · rw [← h]
          rcases r with e | _
          · by_cases he : ∃ b, e = .stopUpload b
            · obtain ⟨b, rfl⟩ := he
              simp only
              have e2 : (st.over π).world = π st.world := rfl
              have h2 := closeFiles_falter hk (List.range H.count) st.world
              rw [e2]
              generalize closeFiles H' (List.range H.count) st.world = z at *
              rcases z with ⟨r, w2⟩
              rcases h2 with ⟨e, hx, he⟩ | h2
              · simp only at he
                subst he
                exact .inl ⟨_, hx, rfl⟩
              · rw [← h2]
                rcases r with e | _
                · exact .inr rfl
                · simp only
                  split
                  · exact finishParse_falter hk _ { st with world := w2 }
                  · rcases exhaust body.producer.flo with ⟨(e | _), s3⟩
                    · exact .inr rfl
                    · exact finishParse_falter hk _ { st with world := w2 }
            · cases e <;> first | exact .inr rfl | exact absurd ⟨_, rfl⟩ he
          · simp only
            rcases exhaust body.producer.flo with ⟨(e | _), s3⟩
            · exact .inr rfl
            · exact finishParse_falter hk _ st
    · exact .inr rfl

theorem parseText_falter (hk : H'.Falters π X H) (C : Codecs) (S : Settings) (fuel64 : Nat) (m : MultiPart)
    (input : LazyStream ρ) (w : σ') :
    (∃ e, X e ∧ (m.parseText C S H' fuel64 input w).1 = .error e) ∨
    ((m.parseText C S H' fuel64 input w).1, (m.parseText C S H' fuel64 input w).2.1,
     π (m.parseText C S H' fuel64 input w).2.2) = m.parseText C S H fuel64 input (π w) := by
  unfold MultiPart.parseText
  rw [hk.count]
  split
  · split <;> exact .inr rfl
  · have hr := rawInputLoop_falter hk { contentLength := m.contentLength, boundary := m.boundary, settings := S }
      (List.range H.count) input w
    generalize rawInputLoop H' { contentLength := m.contentLength, boundary := m.boundary, settings := S }
      (List.range H.count) input w = z at *
    rcases z with ⟨r, input1, w1⟩
    rcases hr with ⟨e, hx, he⟩ | hr
    · simp only at he
      subst he
      exact .inl ⟨_, hx, rfl⟩
    rw [← hr]
    rcases r with e | (_ | r)
    · exact .inr rfl
    · simp only
      cases emptyQueryDict C S with
      | error e => exact .inr rfl
      | ok u =>
        simp only
        have := textPartsLoop_falter hk C S fuel64 (b!"--" ++ m.boundary)
          ((LazyStream.mk' (⟨input1, m.chunkSize⟩ : ChunkIter ρ)).size + 1)
          (LazyStream.mk' ⟨input1, m.chunkSize⟩) { world := w1, counters := List.replicate H.count 0 }
        have e1 : PState.over π ({ world := w1, counters := List.replicate H.count 0 } : PState σ' F) =
          { world := π w1, counters := List.replicate H.count 0 } := rfl
        rw [e1] at this
        generalize textPartsLoop C S H' fuel64 (b!"--" ++ m.boundary)
          ((LazyStream.mk' (⟨input1, m.chunkSize⟩ : ChunkIter ρ)).size + 1)
          (LazyStream.mk' ⟨input1, m.chunkSize⟩) { world := w1, counters := List.replicate H.count 0 } = z at *
        rcases z with ⟨r, body, st⟩
        rcases this with ⟨e, hx, he⟩ | h
        · simp only at he
          subst he
          have := hk.plain e hx
          cases e <;> first | exact .inl ⟨_, hx, rfl⟩ | exact absurd rfl (this.2.2 _)
        · rw [← h]
          rcases r with e | _
          · by_cases he : ∃ b, e = .stopUpload b
            · obtain ⟨b, rfl⟩ := he
              simp only
              have e2 : (st.over π).world = π st.world := rfl
              have h2 := closeFiles_falter hk (List.range H.count) st.world
              rw [e2]
              generalize closeFiles H' (List.range H.count) st.world = z at *
              rcases z with ⟨r, w2⟩
              rcases h2 with ⟨e, hx, he⟩ | h2
              · simp only at he
                subst he
                exact .inl ⟨_, hx, rfl⟩
              · rw [← h2]
                rcases r with e | _
                · exact .inr rfl
                · simp only
                  split
                  · exact finishParse_falter hk _ { st with world := w2 }
                  · rcases exhaust body.producer.flo with ⟨(e | _), s3⟩
                    · exact .inr rfl
                    · exact finishParse_falter hk _ { st with world := w2 }
            · cases e <;> first | exact .inr rfl | exact absurd ⟨_, rfl⟩ he
          · simp only
            rcases exhaust body.producer.flo with ⟨(e | _), s3⟩
            · exact .inr rfl
            · exact finishParse_falter hk _ st
    · exact .inr rfl

theorem run_falter (hk : H'.Falters π X H) (C : Codecs) (S : Settings) (fuel64 : Nat) (text : Bool) (m : MultiPart)
    (input : LazyStream ρ) (w : σ') :
    (∃ e, X e ∧ (m.run C S H' fuel64 text input w).1 = .error e) ∨
    ((m.run C S H' fuel64 text input w).1, (m.run C S H' fuel64 text input w).2.1,
     π (m.run C S H' fuel64 text input w).2.2) = m.run C S H fuel64 text input (π w) := by
  unfold MultiPart.run
  cases text
  · exact parse_falter hk C S fuel64 m input w
  · exact parseText_falter hk C S fuel64 m input w

end
end Verif
