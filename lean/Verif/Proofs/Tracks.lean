import Verif.Proofs.Keeps
import Mathlib.Data.List.Perm.Basic
/-! A generic invariant that relates the world of the handlers to the files that have been collected. -/

namespace Verif
open Spec

/-- `Idle w fs` holds between files, when `fs` are the files collected so far (in any order); `Busy w fs` from the
announcement of a file until it is complete. -/
structure HandlerOps.Tracks {ρ σ F : Type} (H : HandlerOps ρ σ F) (Idle Busy : σ → List F → Prop) : Prop where
  perm : ∀ w fs fs', fs.Perm fs' → Idle w fs → Idle w fs'
  idle : ∀ w fs, Busy w fs → Idle w fs
  newFiles : ∀ a w fs, Idle w fs → Idle (newFiles H a (List.range H.count) w).2 fs ∧
    ((newFiles H a (List.range H.count) w).1 = .ok () → Busy (newFiles H a (List.range H.count) w).2 fs)
  receive : ∀ i d n w fs, Busy w fs → Busy (H.receive i d n w).2 fs
  fileComplete : ∀ i n w fs, Busy w fs → Busy (H.fileComplete i n w).2 fs
  complete : ∀ i n w fs f, Busy w fs → (H.fileComplete i n w).1 = .ok (some f) → Idle (H.fileComplete i n w).2 (f :: fs)
  uploadComplete : ∀ i w fs, Idle w fs → Idle (H.uploadComplete i w).2 fs
  close : ∀ i w fs, Idle w fs → Idle (H.close i w).2 fs

section
variable {ρ σ F τ : Type} [Producer τ] {H : HandlerOps ρ σ F} {Idle Busy : σ → List F → Prop}

omit [Producer τ] in
theorem feedChunk_tracks (hk : H.Tracks Idle Busy) (fs : List F) : ∀ (is : List Nat) (d : Bytes) (cs : List Nat) (w : σ), Busy w fs →
    Busy (feedChunk H is d cs w).2.2 fs := by
  intro is
  induction is with
  | nil => intro d cs w h; exact h
  | cons i is ih =>
    intro d cs w h
    have := hk.receive i d (cs.getD i 0) w fs h
    unfold feedChunk
    generalize H.receive i d (cs.getD i 0) w = z at *
    rcases z with ⟨(e | (_ | d')), w'⟩
    · exact this
    · exact this
    · exact ih _ _ _ this

omit [Producer τ] in
theorem completeLoop_tracks (hk : H.Tracks Idle Busy) (fs : List F) (cs : List Nat) : ∀ (is : List Nat) (w : σ), Busy w fs →
    Idle (completeLoop H cs is w).2 fs ∧
    ∀ f, (completeLoop H cs is w).1 = .ok (some f) → Idle (completeLoop H cs is w).2 (f :: fs) := by
  intro is
  induction is with
  | nil => intro w h; exact ⟨hk.idle _ _ h, by simp [completeLoop]⟩
  | cons i is ih =>
    intro w h
    have h1 := hk.fileComplete i (cs.getD i 0) w fs h
    have h2 := hk.complete i (cs.getD i 0) w fs
    unfold completeLoop
    generalize H.fileComplete i (cs.getD i 0) w = z at *
    rcases z with ⟨(e | (_ | f)), w'⟩
    · exact ⟨hk.idle _ _ h1, by simp⟩
    · exact ih w' h1
    · simp only
      split
      · refine ⟨hk.idle _ _ h1, ?_⟩
        intro f' hf
        simp only [Except.ok.injEq, Option.some.injEq] at hf
        subst hf
        exact h2 f h rfl
      · exact ih w' h1

omit [Producer τ] in
theorem closeFiles_tracks (hk : H.Tracks Idle Busy) (fs : List F) : ∀ (is : List Nat) (w : σ), Idle w fs →
    Idle (closeFiles H is w).2 fs := by
  intro is
  induction is with
  | nil => intro w h; exact h
  | cons i is ih =>
    intro w h
    have := hk.close i w fs h
    unfold closeFiles
    generalize H.close i w = z at *
    rcases z with ⟨(e | _), w'⟩
    · exact this
    · exact ih w' this

omit [Producer τ] in
theorem uploadCompleteLoop_tracks (hk : H.Tracks Idle Busy) (fs : List F) : ∀ (is : List Nat) (w : σ), Idle w fs →
    Idle (uploadCompleteLoop H is w).2 fs := by
  intro is
  induction is with
  | nil => intro w h; exact h
  | cons i is ih =>
    intro w h
    have := hk.uploadComplete i w fs h
    unfold uploadCompleteLoop
    generalize H.uploadComplete i w = z at *
    rcases z with ⟨(e | b), w'⟩
    · exact this
    · cases b
      · exact ih w' this
      · exact this

theorem fileLoop_tracks (hk : H.Tracks Idle Busy) (fs : List F) (fuel64 : Nat) (b64 : Bool) : ∀ (fuel : Nat) (s : LazyStream τ)
    (cs : List Nat) (w : σ), Busy w fs → Busy (fileLoop H fuel64 b64 fuel s cs w).2.2.2 fs := by
  intro fuel
  induction fuel with
  | zero => intro s cs w h; exact h
  | succ fuel ih =>
    intro s cs w h
    unfold fileLoop
    rcases s.next with ⟨(e | (_ | c)), s1⟩
    · exact h
    · exact h
    · simp only
      rcases fileChunk fuel64 b64 c s1 with ⟨(e | d), s2⟩
      · exact h
      · simp only
        have := feedChunk_tracks hk fs (List.range H.count) d cs w h
        generalize feedChunk H (List.range H.count) d cs w = z at *
        rcases z with ⟨(e | _), cs1, w1⟩
        · exact this
        · exact ih s2 cs1 w1 this

theorem receiveFile_tracks (hk : H.Tracks Idle Busy) (fs : List F) (fuel64 : Nat) (a : NewFileArgs)
    (s : LazyStream τ) (w : σ) (h : Idle w fs) : Idle (receiveFile H fuel64 a s w).2.2.2 fs ∧
      ((receiveFile H fuel64 a s w).1 = .ok () → Busy (receiveFile H fuel64 a s w).2.2.2 fs) := by
  unfold receiveFile
  simp only
  have := hk.newFiles a w fs h
  generalize newFiles H a (List.range H.count) w = z at *
  rcases z with ⟨(e | _), w1⟩
  · exact ⟨this.1, by simp⟩
  · have := fileLoop_tracks hk fs fuel64 (a.transferEncoding = some b!"base64") (s.size + 1) s (List.replicate H.count 0) w1
      (this.2 rfl)
    exact ⟨hk.idle _ _ this, fun _ => this⟩

/-- The files of a dictionary. -/
def filesOf (d : MVD F) : List F := (items d).map Prod.snd

/-- The invariant of the state. -/
structure PState.Tracked (Idle Busy : σ → List F → Prop) (st : PState σ F) : Prop where
  idle : Idle st.world (filesOf st.files)
  busy : ∀ c n, st.oldField = some (c :: n) → Busy st.world (filesOf st.files)

omit [Producer τ] in
theorem filesOf_append {k : Bytes} {v : F} {d : MVD F} : (v :: filesOf d).Perm (filesOf (d.append k v)) := by
  unfold filesOf MVD.append
  induction d with
  | nil => simp [items, Dict.set, Dict.get?]
  | cons q t ih =>
    obtain ⟨a, b⟩ := q
    unfold Dict.set Dict.get?
    by_cases h : a = k
    · subst h
      simp only [items, if_true, Option.getD_some, List.flatMap_cons, List.map_append, List.map_cons, List.map_nil,
        List.append_assoc]
      exact (List.perm_middle (a := v)).symm
    · simp only [h, if_false]
      simp only [items] at ih ⊢
      simp only [List.flatMap_cons, List.map_append]
      exact (List.perm_middle.symm).trans (List.Perm.append_left _ ih)

omit [Producer τ] in
theorem completeOld_tracks (hk : H.Tracks Idle Busy) (st : PState σ F) (h : st.Tracked Idle Busy) :
    Idle (completeOld H st).2.world (filesOf (completeOld H st).2.files) ∧
    ((completeOld H st).1 = .ok () → ∀ c n, (completeOld H st).2.oldField ≠ some (c :: n)) := by
  obtain ⟨world, post, files, oldField, counters, numBytes, numKeys⟩ := st
  unfold completeOld
  cases oldField with
  | none => exact ⟨h.idle, by simp⟩
  | some n =>
    cases n with
    | nil => exact ⟨h.idle, by simp⟩
    | cons c n =>
      simp only [handleFileComplete]
      have := completeLoop_tracks hk (filesOf files) counters (List.range H.count) world (h.busy c n rfl)
      generalize completeLoop H counters (List.range H.count) world = z at *
      rcases z with ⟨(e | (_ | f)), w1⟩
      · exact ⟨this.1, by simp⟩
      · exact ⟨this.1, by simp⟩
      · exact ⟨hk.perm _ _ _ filesOf_append (this.2 f rfl), by simp⟩

theorem handlePart_tracks (hk : H.Tracks Idle Busy)
    (C : Codecs) (S : Settings) (fuel64 : Nat) (t : ItemType) (md : MetaData)
    (s : LazyStream τ) (st : PState σ F) (h : st.Tracked Idle Busy) :
    Idle (handlePart C S H fuel64 t md s st).2.2.world (filesOf (handlePart C S H fuel64 t md s st).2.2.files) ∧
    ((handlePart C S H fuel64 t md s st).1 = .ok () → (handlePart C S H fuel64 t md s st).2.2.Tracked Idle Busy) := by
  unfold handlePart
  have h1 := completeOld_tracks hk st h
  generalize completeOld H st = z at *
  rcases z with ⟨(e | _), st1⟩
  · exact ⟨h1.1, by simp⟩
  simp only at h1 ⊢
  have ht : st1.Tracked Idle Busy := ⟨h1.1, fun c n e => absurd e (h1.2 trivial c n)⟩
  cases partName md with
  | none => exact ⟨h1.1, fun _ => ht⟩
  | some dn =>
    obtain ⟨d, n⟩ := dn
    simp only
    cases forceText n.strip with
    | error e => exact ⟨h1.1, by simp⟩
    | ok name =>
      cases t with
      | raw => exact ⟨h1.1, by simp⟩
      | field =>
        simp only [handleField]
        split
        · exact ⟨h1.1, by simp⟩
        · generalize s.read (Option.map _ S.dataMaxMemory) = rd
          rcases rd with ⟨(e | raw), s1⟩
          · exact ⟨h1.1, by simp⟩
          · have := storeField_world C S name (transferEnc md) md raw { st1 with numKeys := st1.numKeys + 1 }
            have ho : (storeField C S name (transferEnc md) md raw { st1 with numKeys := st1.numKeys + 1 }).2.oldField =
                st1.oldField := by
              unfold storeField
              simp only
              split
              · rfl
              · split
                · rfl
                · split <;> rfl
            simp only
            refine ⟨by rw [this.1, this.2]; exact h1.1, fun _ => ⟨by rw [this.1, this.2]; exact h1.1, ?_⟩⟩
            intro c n e
            rw [ho] at e
            exact absurd e (h1.2 trivial c n)
      | file =>
        simp only [handleFile]
        cases hd : dispositionFileName d with
        | error e => exact ⟨h1.1, by simp⟩
        | ok fn =>
          simp only
          split
          · exact ⟨h1.1, fun _ => ht⟩
          · have h2 := receiveFile_tracks hk (filesOf st1.files) fuel64 (fileArgs name fn (transferEnc md) md) s st1.world h1.1
            generalize receiveFile H fuel64 (fileArgs name fn (transferEnc md) md) s st1.world = z at *
            rcases z with
              ⟨(e | _), s1, cs, w1⟩
            · by_cases he : e = .skipFile
              · subst he
                simp only
                have h3 := closeFiles_tracks hk (filesOf st1.files) (List.range H.count) w1 h2.1
                generalize closeFiles H (List.range H.count) w1 = z at *
                rcases z with ⟨(e | _), w2⟩
                · exact ⟨h3, by simp⟩
                · simp only
                  rcases exhaust s1 with ⟨(e | _), s2⟩
                  · exact ⟨h3, by simp⟩
                  · exact ⟨h3, fun _ => ⟨h3, fun c n e => absurd e (h1.2 trivial c n)⟩⟩
              · cases e <;> first | exact ⟨h2.1, by simp⟩ | exact absurd rfl he
            · exact ⟨h2.1, fun _ => ⟨h2.1, fun _ _ _ => h2.2 rfl⟩⟩

end

section
variable {ρ σ F : Type} [Producer ρ] {H : HandlerOps ρ σ F} {Idle Busy : σ → List F → Prop}

theorem partsLoop_tracks (hk : H.Tracks Idle Busy) (C : Codecs) (S : Settings) (fuel64 : Nat) (sep : Bytes) :
    ∀ (fuel : Nat) (s : LazyStream (ChunkIter ρ)) (st : PState σ F), st.Tracked Idle Busy →
    Idle (partsLoop C S H fuel64 sep fuel s st).2.2.world (filesOf (partsLoop C S H fuel64 sep fuel s st).2.2.files) := by
  intro fuel
  induction fuel with
  | zero => intro s st h; exact h.idle
  | succ fuel ih =>
    intro s st h
    unfold partsLoop
    rcases nextPart s sep with ⟨(e | (_ | sub)), s1⟩
    · exact h.idle
    · exact h.idle
    · simp only
      rcases parseBoundaryStream C sub 1024 with ⟨(e | ⟨t, md⟩), sub1⟩
      · exact h.idle
      · simp only
        have := handlePart_tracks hk C S fuel64 t md sub1 st h
        generalize handlePart C S H fuel64 t md sub1 st = z at *
        rcases z with ⟨(e | _), sub2, st2⟩
        · exact this.1
        · exact ih _ st2 (this.2 rfl)

theorem textPartsLoop_tracks (hk : H.Tracks Idle Busy) (C : Codecs) (S : Settings) (fuel64 : Nat) (sep : Bytes) :
    ∀ (fuel : Nat) (s : LazyStream (ChunkIter ρ)) (st : PState σ F), st.Tracked Idle Busy →
    Idle (textPartsLoop C S H fuel64 sep fuel s st).2.2.world
      (filesOf (textPartsLoop C S H fuel64 sep fuel s st).2.2.files) := by
  intro fuel
  induction fuel with
  | zero => intro s st h; exact h.idle
  | succ fuel ih =>
    intro s st h
    unfold textPartsLoop
    rcases nextTextPart s sep with ⟨(e | (_ | sub)), s1⟩
    · exact h.idle
    · exact h.idle
    · simp only
      rcases parseBoundaryStream C sub 1024 with ⟨(e | ⟨t, md⟩), sub1⟩
      · exact h.idle
      · simp only
        have := handlePart_tracks hk C S fuel64 t md sub1 st h
        generalize handlePart C S H fuel64 t md sub1 st = z at *
        rcases z with ⟨(e | _), sub2, st2⟩
        · exact this.1
        · exact ih _ st2 (this.2 rfl)

omit [Producer ρ] in
theorem finishParse_tracks (hk : H.Tracks Idle Busy) (s : LazyStream ρ) (st : PState σ F) (h : Idle st.world (filesOf st.files)) :
    (∃ fs, Idle (finishParse H s st).2.2 fs) ∧
    ∀ post files, (finishParse H s st).1 = .ok (post, files) → Idle (finishParse H s st).2.2 (filesOf files) := by
  unfold finishParse
  have := uploadCompleteLoop_tracks hk (filesOf st.files) (List.range H.count) st.world h
  generalize uploadCompleteLoop H (List.range H.count) st.world = z at *
  rcases z with ⟨(e | _), w⟩
  · exact ⟨⟨_, this⟩, by simp⟩
  · refine ⟨⟨_, this⟩, ?_⟩
    intro post files he
    simp only [Except.ok.injEq, Prod.mk.injEq] at he
    rw [← he.2]; exact this

/-- What `parse` does after no handler has taken over, whatever the kind of boundary. -/
theorem run_tracks (hk : H.Tracks Idle Busy)
    (C : Codecs) (S : Settings) (fuel64 : Nat) (text : Bool) (m : MultiPart) (hl : m.contentLength ≠ 0)
    (input input1 : LazyStream ρ) (w w1 : σ)
    (hraw : rawInputLoop H { contentLength := m.contentLength, boundary := m.boundary, settings := S }
      (List.range H.count) input w = (.ok none, input1, w1)) (h : Idle w1 []) :
    (∃ fs, Idle (m.run C S H fuel64 text input w).2.2 fs) ∧
    ∀ post files, (m.run C S H fuel64 text input w).1 = .ok (post, files) →
      Idle (m.run C S H fuel64 text input w).2.2 (filesOf files) := by
  have hst : PState.Tracked (σ := σ) (F := F) Idle Busy { world := w1, counters := List.replicate H.count 0 } :=
    ⟨h, by simp⟩
  unfold MultiPart.run
  cases text with
  | true =>
    rw [if_pos rfl]
    unfold MultiPart.parseText
    rw [if_neg hl, hraw]
    simp only
    cases emptyQueryDict C S with
    | error e => exact ⟨⟨_, h⟩, by simp⟩
    | ok u =>
      simp only
      have := textPartsLoop_tracks hk C S fuel64 (b!"--" ++ m.boundary)
        ((LazyStream.mk' (⟨input1, m.chunkSize⟩ : ChunkIter ρ)).size + 1)
        (LazyStream.mk' ⟨input1, m.chunkSize⟩) { world := w1, counters := List.replicate H.count 0 } hst
      generalize textPartsLoop C S H fuel64 (b!"--" ++ m.boundary)
        ((LazyStream.mk' (⟨input1, m.chunkSize⟩ : ChunkIter ρ)).size + 1)
        (LazyStream.mk' ⟨input1, m.chunkSize⟩) { world := w1, counters := List.replicate H.count 0 } = z at *
      rcases z with
        ⟨(e | _), body, st⟩
      · by_cases he : ∃ b, e = .stopUpload b
        · obtain ⟨b, rfl⟩ := he
          simp only
          have h2 := closeFiles_tracks hk (filesOf st.files) (List.range H.count) st.world this
          generalize closeFiles H (List.range H.count) st.world = z at *
          rcases z with ⟨(e | _), w2⟩
          · exact ⟨⟨_, h2⟩, by simp⟩
          · simp only
            split
            · exact finishParse_tracks hk _ { st with world := w2 } h2
            · rcases exhaust body.producer.flo with ⟨(e | _), s3⟩
              · exact ⟨⟨_, h2⟩, by simp⟩
              · exact finishParse_tracks hk _ { st with world := w2 } h2
        · cases e <;> first | exact ⟨⟨_, this⟩, by simp⟩ | exact absurd ⟨_, rfl⟩ he
      · simp only
        rcases exhaust body.producer.flo with ⟨(e | _), s3⟩
        · exact ⟨⟨_, this⟩, by simp⟩
        · exact finishParse_tracks hk _ st this
  | false =>
    rw [if_neg (by simp)]
    unfold MultiPart.parse
    rw [if_neg hl, hraw]
    simp only
    cases emptyQueryDict C S with
    | error e => exact ⟨⟨_, h⟩, by simp⟩
    | ok u =>
      simp only
      have := partsLoop_tracks hk C S fuel64 (b!"--" ++ m.boundary)
        ((LazyStream.mk' (⟨input1, m.chunkSize⟩ : ChunkIter ρ)).size + 1)
        (LazyStream.mk' ⟨input1, m.chunkSize⟩) { world := w1, counters := List.replicate H.count 0 } hst
      generalize partsLoop C S H fuel64 (b!"--" ++ m.boundary)
        ((LazyStream.mk' (⟨input1, m.chunkSize⟩ : ChunkIter ρ)).size + 1)
        (LazyStream.mk' ⟨input1, m.chunkSize⟩) { world := w1, counters := List.replicate H.count 0 } = z at *
      rcases z with
        ⟨(e | _), body, st⟩
      · by_cases he : ∃ b, e = .stopUpload b
        · obtain ⟨b, rfl⟩ := he
          simp only
          have h2 := closeFiles_tracks hk (filesOf st.files) (List.range H.count) st.world this
          generalize closeFiles H (List.range H.count) st.world = z at *
          rcases z with ⟨(e | _), w2⟩
          · exact ⟨⟨_, h2⟩, by simp⟩
          · simp only
            split
            · exact finishParse_tracks hk _ { st with world := w2 } h2
            · rcases exhaust body.producer.flo with ⟨(e | _), s3⟩
              · exact ⟨⟨_, h2⟩, by simp⟩
              · exact finishParse_tracks hk _ { st with world := w2 } h2
        · cases e <;> first | exact ⟨⟨_, this⟩, by simp⟩ | exact absurd ⟨_, rfl⟩ he
      · simp only
        rcases exhaust body.producer.flo with ⟨(e | _), s3⟩
        · exact ⟨⟨_, this⟩, by simp⟩
        · exact finishParse_tracks hk _ st this

end
end Verif
