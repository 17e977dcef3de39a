import Verif.Proofs.ParseInv
import Verif.Spec.Trace
/-! A generic invariant of the handlers' world during a parse. -/

namespace Verif
open Spec

/-- `I` is an invariant of the world under all calls the parser makes after `handle_raw_input`,
`Q` holds for the files that handlers return, `A` for the arguments of `new_file`. -/
structure HandlerOps.Keeps {ρ σ F : Type} (H : HandlerOps ρ σ F) (I : σ → Prop) (Q : F → Prop)
    (A : NewFileArgs → Prop) : Prop where
  newFiles : ∀ a w, I w → A a → I (newFiles H a (List.range H.count) w).2
  receive : ∀ i d n w, I w → I (H.receive i d n w).2
  fileComplete : ∀ i n w, I w → I (H.fileComplete i n w).2
  complete : ∀ i n w f, I w → (H.fileComplete i n w).1 = .ok (some f) → Q f
  uploadComplete : ∀ i w, I w → I (H.uploadComplete i w).2
  close : ∀ i w, I w → I (H.close i w).2

section
variable {ρ σ F τ : Type} [Producer τ] {H : HandlerOps ρ σ F} {I : σ → Prop} {Q : F → Prop}
  {A : NewFileArgs → Prop}

theorem newFiles_of_newFile (hk : ∀ i a w, I w → A a → I (H.newFile i a w).2) (a : NewFileArgs) (w : σ) (hw : I w)
    (ha : A a) : I (newFiles H a (List.range H.count) w).2 := by
  generalize List.range H.count = is
  induction is generalizing w with
  | nil => exact hw
  | cons i is ih =>
    have := hk i a w hw ha
    unfold newFiles
    generalize H.newFile i a w = z at *
    rcases z with ⟨(e | _), w'⟩
    · cases e <;> exact this
    · exact ih w' this

theorem newFiles_keeps (hk : H.Keeps I Q A) {a : NewFileArgs} (ha : A a) (w : σ) (h : I w) :
    I (newFiles H a (List.range H.count) w).2 :=
  hk.newFiles a w h ha

theorem feedChunk_keeps (hk : H.Keeps I Q A) : ∀ (is : List Nat) (d : Bytes) (cs : List Nat) (w : σ), I w →
    I (feedChunk H is d cs w).2.2 := by
  intro is
  induction is with
  | nil => intro d cs w h; exact h
  | cons i is ih =>
    intro d cs w h
    have := hk.receive i d (cs.getD i 0) w h
    unfold feedChunk
    generalize H.receive i d (cs.getD i 0) w = z at *
    rcases z with ⟨(e | (_ | d')), w'⟩
    · exact this
    · exact this
    · exact ih _ _ _ this

theorem completeLoop_keeps (hk : H.Keeps I Q A) (cs : List Nat) : ∀ (is : List Nat) (w : σ), I w →
    I (completeLoop H cs is w).2 ∧ ∀ f, (completeLoop H cs is w).1 = .ok (some f) → Q f := by
  intro is
  induction is with
  | nil => intro w h; exact ⟨h, by simp [completeLoop]⟩
  | cons i is ih =>
    intro w h
    have h1 := hk.fileComplete i (cs.getD i 0) w h
    have h2 := hk.complete i (cs.getD i 0) w
    unfold completeLoop
    generalize H.fileComplete i (cs.getD i 0) w = z at *
    rcases z with ⟨(e | (_ | f)), w'⟩
    · exact ⟨h1, by simp⟩
    · exact ih w' h1
    · simp only
      split
      · refine ⟨h1, ?_⟩
        intro f' hf
        simp only [Except.ok.injEq, Option.some.injEq] at hf
        subst hf
        exact h2 f h rfl
      · exact ih w' h1

theorem closeFiles_keeps (hk : H.Keeps I Q A) : ∀ (is : List Nat) (w : σ), I w → I (closeFiles H is w).2 := by
  intro is
  induction is with
  | nil => intro w h; exact h
  | cons i is ih =>
    intro w h
    have := hk.close i w h
    unfold closeFiles
    generalize H.close i w = z at *
    rcases z with ⟨(e | _), w'⟩
    · exact this
    · exact ih w' this

theorem uploadCompleteLoop_keeps (hk : H.Keeps I Q A) : ∀ (is : List Nat) (w : σ), I w →
    I (uploadCompleteLoop H is w).2 := by
  intro is
  induction is with
  | nil => intro w h; exact h
  | cons i is ih =>
    intro w h
    have := hk.uploadComplete i w h
    unfold uploadCompleteLoop
    generalize H.uploadComplete i w = z at *
    rcases z with ⟨(e | b), w'⟩
    · exact this
    · cases b
      · exact ih w' this
      · exact this

theorem fileLoop_keeps (hk : H.Keeps I Q A) (fuel64 : Nat) (b64 : Bool) : ∀ (fuel : Nat) (s : LazyStream τ)
    (cs : List Nat) (w : σ), I w → I (fileLoop H fuel64 b64 fuel s cs w).2.2.2 := by
  intro fuel
  induction fuel with
  | zero => intro s cs w h; exact h
  | succ fuel ih =>
    intro s cs w h
    unfold fileLoop
    rcases s.next with ⟨(e | (_ | c)), s1⟩
    · exact h
    · exact h
    · simp only
      rcases fileChunk fuel64 b64 c s1 with ⟨(e | d), s2⟩
      · exact h
      · simp only
        have := feedChunk_keeps hk (List.range H.count) d cs w h
        generalize feedChunk H (List.range H.count) d cs w = z at *
        rcases z with ⟨(e | _), cs1, w1⟩
        · exact this
        · exact ih s2 cs1 w1 this

theorem receiveFile_keeps (hk : H.Keeps I Q A) (fuel64 : Nat) {a : NewFileArgs} (ha : A a)
    (s : LazyStream τ) (w : σ) (h : I w) : I (receiveFile H fuel64 a s w).2.2.2 := by
  unfold receiveFile
  simp only
  have := newFiles_keeps hk ha w h
  generalize newFiles H a (List.range H.count) w = z at *
  rcases z with ⟨(e | _), w1⟩
  · exact this
  · exact fileLoop_keeps hk fuel64 _ _ s _ w1 this

/-- The invariant of the state. -/
def PState.Kept (I : σ → Prop) (Q : F → Prop) (st : PState σ F) : Prop :=
  I st.world ∧ ∀ p ∈ items st.files, Q p.2

omit [Producer τ] in
theorem mem_items_append {α : Type} {k : Bytes} {v : α} {p : Bytes × α} : ∀ {d : MVD α},
    p ∈ items (d.append k v) ↔ p ∈ items d ∨ p = (k, v) := by
  intro d
  unfold MVD.append
  induction d with
  | nil => simp [items, Dict.set, Dict.get?]
  | cons q t ih =>
    obtain ⟨a, b⟩ := q
    unfold Dict.set Dict.get?
    by_cases h : a = k
    · subst h
      simp only [items, if_true, Option.getD_some, List.flatMap_cons, List.map_append, List.map_cons,
        List.map_nil, List.mem_append, List.mem_singleton]
      constructor
      · rintro ((h | h) | h)
        · exact .inl (.inl h)
        · exact .inr h
        · exact .inl (.inr h)
      · rintro ((h | h) | h)
        · exact .inl (.inl h)
        · exact .inr h
        · exact .inl (.inr h)
    · simp only [h, if_false]
      simp only [items] at ih ⊢
      simp only [List.flatMap_cons, List.mem_append, ih, or_assoc]

omit [Producer τ] in
theorem completeOld_keeps (hk : H.Keeps I Q A) (st : PState σ F) (h : st.Kept I Q) :
    (completeOld H st).2.Kept I Q := by
  obtain ⟨world, post, files, oldField, counters, numBytes, numKeys⟩ := st
  unfold completeOld
  cases oldField with
  | none => exact h
  | some n =>
    cases n with
    | nil => exact h
    | cons c n =>
      simp only [handleFileComplete]
      have := completeLoop_keeps hk counters (List.range H.count) world h.1
      generalize completeLoop H counters (List.range H.count) world = z at *
      rcases z with ⟨(e | (_ | f)), w1⟩
      · exact ⟨this.1, h.2⟩
      · exact ⟨this.1, h.2⟩
      · refine ⟨this.1, ?_⟩
        intro p hp
        rcases mem_items_append.1 hp with hp | rfl
        · exact h.2 p hp
        · exact this.2 f rfl

omit [Producer τ] in
theorem storeField_world (C : Codecs) (S : Settings) (name te md raw) (st : PState σ F) :
    (storeField C S name te md raw st).2.world = st.world ∧
    (storeField C S name te md raw st).2.files = st.files := by
  unfold storeField
  simp only
  split
  · exact ⟨rfl, rfl⟩
  · split
    · exact ⟨rfl, rfl⟩
    · split <;> exact ⟨rfl, rfl⟩

theorem handlePart_keeps (hk : H.Keeps I Q A)
    (hA : ∀ name fn te md d, dispositionFileName d = .ok fn → fn ≠ [] → A (fileArgs name fn te md))
    (C : Codecs) (S : Settings) (fuel64 : Nat) (t : ItemType) (md : MetaData)
    (s : LazyStream τ) (st : PState σ F) (h : st.Kept I Q) :
    (handlePart C S H fuel64 t md s st).2.2.Kept I Q := by
  unfold handlePart
  have h1 := completeOld_keeps hk st h
  generalize completeOld H st = z at *
  rcases z with ⟨(e | _), st1⟩
  · exact h1
  simp only
  cases partName md with
  | none => exact h1
  | some dn =>
    obtain ⟨d, n⟩ := dn
    simp only
    cases forceText n.strip with
    | error e => exact h1
    | ok name =>
      cases t with
      | raw => exact h1
      | field =>
        simp only [handleField]
        split
        · exact h1
        · generalize s.read (Option.map _ S.dataMaxMemory) = rd
          rcases rd with ⟨(e | raw), s1⟩
          · exact h1
          · have := storeField_world C S name (transferEnc md) md raw { st1 with numKeys := st1.numKeys + 1 }
            simp only
            exact ⟨by rw [this.1]; exact h1.1, by rw [this.2]; exact h1.2⟩
      | file =>
        simp only [handleFile]
        cases hd : dispositionFileName d with
        | error e => exact h1
        | ok fn =>
          simp only
          split
          · exact h1
          · rename_i hfn
            have h2 := receiveFile_keeps hk fuel64 (hA name fn (transferEnc md) md d hd hfn) s st1.world h1.1
            generalize receiveFile H fuel64 (fileArgs name fn (transferEnc md) md) s st1.world = z at *
            rcases z with
              ⟨(e | _), s1, cs, w1⟩
            · by_cases he : e = .skipFile
              · subst he
                simp only
                have h3 := closeFiles_keeps hk (List.range H.count) w1 h2
                generalize closeFiles H (List.range H.count) w1 = z at *
                rcases z with ⟨(e | _), w2⟩
                · exact ⟨h3, h1.2⟩
                · simp only
                  rcases exhaust s1 with ⟨(e | _), s2⟩ <;> exact ⟨h3, h1.2⟩
              · cases e <;> first | exact ⟨h2, h1.2⟩ | exact absurd rfl he
            · exact ⟨h2, h1.2⟩

end

section
variable {ρ σ F : Type} [Producer ρ] {H : HandlerOps ρ σ F} {I : σ → Prop} {Q : F → Prop}
  {A : NewFileArgs → Prop}

theorem partsLoop_keeps (hk : H.Keeps I Q A)
    (hA : ∀ name fn te md d, dispositionFileName d = .ok fn → fn ≠ [] → A (fileArgs name fn te md))
    (C : Codecs) (S : Settings) (fuel64 : Nat) (sep : Bytes) :
    ∀ (fuel : Nat) (s : LazyStream (ChunkIter ρ)) (st : PState σ F), st.Kept I Q →
    (partsLoop C S H fuel64 sep fuel s st).2.2.Kept I Q := by
  intro fuel
  induction fuel with
  | zero => intro s st h; exact h
  | succ fuel ih =>
    intro s st h
    unfold partsLoop
    rcases nextPart s sep with ⟨(e | (_ | sub)), s1⟩
    · exact h
    · exact h
    · simp only
      rcases parseBoundaryStream C sub 1024 with ⟨(e | ⟨t, md⟩), sub1⟩
      · exact h
      · simp only
        have := handlePart_keeps hk hA C S fuel64 t md sub1 st h
        generalize handlePart C S H fuel64 t md sub1 st = z at *
        rcases z with ⟨(e | _), sub2, st2⟩
        · exact this
        · exact ih _ st2 this

omit [Producer ρ] in
theorem finishParse_keeps (hk : H.Keeps I Q A) (s : LazyStream ρ) (st : PState σ F) (h : st.Kept I Q) :
    I (finishParse H s st).2.2 ∧
    ∀ post files, (finishParse H s st).1 = .ok (post, files) → ∀ p ∈ items files, Q p.2 := by
  unfold finishParse
  have := uploadCompleteLoop_keeps hk (List.range H.count) st.world h.1
  generalize uploadCompleteLoop H (List.range H.count) st.world = z at *
  rcases z with ⟨(e | _), w⟩
  · exact ⟨this, by simp⟩
  · refine ⟨this, ?_⟩
    intro post files he
    simp only [Except.ok.injEq, Prod.mk.injEq] at he
    rw [← he.2]; exact h.2

/-- What `parse` does after no handler has taken over. -/
theorem parse_keeps (hk : H.Keeps I Q A)
    (hA : ∀ name fn te md d, dispositionFileName d = .ok fn → fn ≠ [] → A (fileArgs name fn te md))
    (C : Codecs) (S : Settings) (fuel64 : Nat) (m : MultiPart) (hl : m.contentLength ≠ 0)
    (input input1 : LazyStream ρ) (w w1 : σ)
    (hraw : rawInputLoop H { contentLength := m.contentLength, boundary := m.boundary, settings := S }
      (List.range H.count) input w = (.ok none, input1, w1)) (h : I w1) :
    I (m.parse C S H fuel64 input w).2.2 ∧
    ∀ post files, (m.parse C S H fuel64 input w).1 = .ok (post, files) → ∀ p ∈ items files, Q p.2 := by
  unfold MultiPart.parse
  rw [if_neg hl, hraw]
  simp only
  cases emptyQueryDict C S with
  | error e => exact ⟨h, by simp⟩
  | ok u =>
    simp only
    have := partsLoop_keeps hk hA C S fuel64 (b!"--" ++ m.boundary)
      ((LazyStream.mk' (⟨input1, m.chunkSize⟩ : ChunkIter ρ)).size + 1)
      (LazyStream.mk' ⟨input1, m.chunkSize⟩) { world := w1, counters := List.replicate H.count 0 }
      ⟨h, by simp [items]⟩
    generalize partsLoop C S H fuel64 (b!"--" ++ m.boundary)
      ((LazyStream.mk' (⟨input1, m.chunkSize⟩ : ChunkIter ρ)).size + 1)
      (LazyStream.mk' ⟨input1, m.chunkSize⟩) { world := w1, counters := List.replicate H.count 0 } = z at *
    rcases z with
      ⟨(e | _), body, st⟩
    · by_cases he : ∃ b, e = .stopUpload b
      · obtain ⟨b, rfl⟩ := he
        simp only
        have h2 := closeFiles_keeps hk (List.range H.count) st.world this.1
        generalize closeFiles H (List.range H.count) st.world = z at *
        rcases z with ⟨(e | _), w2⟩
        · exact ⟨h2, by simp⟩
        · simp only
          split
          · exact finishParse_keeps hk _ { st with world := w2 } ⟨h2, this.2⟩
          · rcases exhaust body.producer.flo with ⟨(e | _), s3⟩
            · exact ⟨h2, by simp⟩
            · exact finishParse_keeps hk _ { st with world := w2 } ⟨h2, this.2⟩
      · cases e <;> first | exact ⟨this.1, by simp⟩ | exact absurd ⟨_, rfl⟩ he
    · simp only
      rcases exhaust body.producer.flo with ⟨(e | _), s3⟩
      · exact ⟨this.1, by simp⟩
      · exact finishParse_keeps hk _ st this

end
end Verif
