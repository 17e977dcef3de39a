import Verif.Proofs.Keeps
import Verif.Proofs.Trace
/-! Offsets and sizes given to the handlers (C23). -/

namespace Verif
open Spec

section
variable {ρ σ F τ : Type} [Producer τ] {H : HandlerOps ρ σ F}

omit [Producer τ] in
theorem followOffsets_append (a b : List (Ev F)) : ∀ tot : Nat → Nat,
    followOffsets (a ++ b) tot = (followOffsets a tot).bind (followOffsets b) := by
  induction a with
  | nil => intro tot; rfl
  | cons e a ih =>
    intro tot
    rw [List.cons_append]
    rcases e with i | ⟨i, a⟩ | ⟨i, d, n⟩ | ⟨i, n, r⟩ | i | i
    · exact ih tot
    · cases i with
      | zero => exact ih _
      | succ i => exact ih tot
    · simp only [followOffsets]
      split
      · exact ih _
      · rfl
    · simp only [followOffsets]
      split
      · exact ih _
      · rfl
    · exact ih tot
    · exact ih tot

/-- The log is contiguous and the totals are these. -/
def Totals (log : List (Ev F)) (tot : Nat → Nat) : Prop := followOffsets log (fun _ => 0) = some tot

omit [Producer τ] in
theorem Totals.snoc {log : List (Ev F)} {tot} (h : Totals log tot) (e : Ev F) :
    followOffsets (log ++ [e]) (fun _ => 0) = followOffsets [e] tot := by
  rw [followOffsets_append, h]; rfl

omit [Producer τ] in
/-- Announcing a file to all handlers. -/
theorem newFiles_totals (a : NewFileArgs) : ∀ (is : List Nat) (w : σ × List (Ev F)) (tot),
    Totals w.2 tot → ∃ tot', Totals (newFiles (traced H) a is w).2.2 tot' ∧
      ((is.head? = some 0 ∨ ∀ i, tot i = 0) → ∀ i, tot' i = 0) := by
  intro is
  induction is with
  | nil =>
    intro w tot h
    exact ⟨tot, h, by rintro (h | h); simp at h; exact h⟩
  | cons i is ih =>
    intro w tot h
    have key : ∃ t1, Totals (w.2 ++ [.newFile i a]) t1 ∧
        (((i :: is).head? = some 0 ∨ ∀ i, tot i = 0) → ∀ i, t1 i = 0) := by
      cases i with
      | zero => exact ⟨fun _ => 0, h.snoc _, fun _ _ => rfl⟩
      | succ i => exact ⟨tot, h.snoc _, by rintro (h | h); simp at h; exact h⟩
    obtain ⟨t1, h1, h2⟩ := key
    simp only [newFiles, traced]
    rcases H.newFile i a w.1 with ⟨(e | _), w'⟩
    · cases e <;> exact ⟨t1, h1, h2⟩
    · obtain ⟨t2, h3, h4⟩ := ih (w', w.2 ++ [.newFile i a]) t1 h1
      exact ⟨t2, h3, fun h => h4 (.inr (h2 h))⟩

omit [Producer τ] in
/-- Passing a chunk through the handlers. -/
theorem feedChunk_totals : ∀ (is : List Nat) (d : Bytes) (cs : List Nat) (w : σ × List (Ev F)) (tot),
    Totals w.2 tot → (∀ i < cs.length, tot i = cs.getD i 0) → (∀ i ∈ is, i < cs.length) →
    ∃ tot', Totals (feedChunk (traced H) is d cs w).2.2.2 tot' ∧
      (feedChunk (traced H) is d cs w).2.1.length = cs.length ∧
      ((feedChunk (traced H) is d cs w).1 = .ok () →
        ∀ i < cs.length, tot' i = (feedChunk (traced H) is d cs w).2.1.getD i 0) := by
  intro is
  induction is with
  | nil => intro d cs w tot h h1 h2; exact ⟨tot, h, rfl, fun _ => h1⟩
  | cons i is ih =>
    intro d cs w tot h h1 h2
    have hi := h2 i (by simp)
    have hs : Totals (w.2 ++ [.receive i d (cs.getD i 0)])
        (fun j => if j = i then tot i + d.length else tot j) := by
      unfold Totals
      rw [h.snoc]
      rw [← h1 i hi]; simp [followOffsets]
    have hn : ∀ j < cs.length, (if j = i then tot i + d.length else tot j) =
        (cs.set i (cs.getD i 0 + d.length)).getD j 0 := by
      intro j hj
      by_cases hji : j = i
      · subst hji
        simp [List.getD_eq_getElem?_getD, hj, h1 j hj]
      · simp only [hji, if_false]
        rw [h1 j hj]
        simp [List.getD_eq_getElem?_getD, Ne.symm hji]
    simp only [feedChunk, traced]
    rcases H.receive i d (cs.getD i 0) w.1 with ⟨(e | (_ | d')), w'⟩
    · exact ⟨_, hs, rfl, by simp⟩
    · exact ⟨_, hs, by simp, fun _ => hn⟩
    · obtain ⟨t, a1, a2, a3⟩ := ih d' (cs.set i (cs.getD i 0 + d.length))
        (w', w.2 ++ [.receive i d (cs.getD i 0)]) _ hs
        (by simpa using hn) (by intro j hj; simpa using h2 j (List.mem_cons_of_mem _ hj))
      simp only [List.length_set] at a2 a3
      exact ⟨t, a1, a2, a3⟩

/-- The loop over the chunks of a file. -/
theorem fileLoop_totals (fuel64 : Nat) (b64 : Bool) : ∀ (fuel : Nat) (s : LazyStream τ)
    (cs : List Nat) (w : σ × List (Ev F)) (tot),
    Totals w.2 tot → (∀ i < cs.length, tot i = cs.getD i 0) → cs.length = H.count →
    ∃ tot', Totals (fileLoop (traced H) fuel64 b64 fuel s cs w).2.2.2.2 tot' ∧
      (fileLoop (traced H) fuel64 b64 fuel s cs w).2.2.1.length = cs.length ∧
      ((fileLoop (traced H) fuel64 b64 fuel s cs w).1 = .ok () →
        ∀ i < cs.length, tot' i = (fileLoop (traced H) fuel64 b64 fuel s cs w).2.2.1.getD i 0) := by
  intro fuel
  induction fuel with
  | zero => intro s cs w tot h h1 h2; exact ⟨tot, h, rfl, by simp [fileLoop]⟩
  | succ fuel ih =>
    intro s cs w tot h h1 h2
    unfold fileLoop
    rcases s.next with ⟨(e | (_ | c)), s1⟩
    · exact ⟨tot, h, rfl, by simp⟩
    · exact ⟨tot, h, rfl, fun _ => h1⟩
    · simp only
      rcases fileChunk fuel64 b64 c s1 with ⟨(e | d), s2⟩
      · exact ⟨tot, h, rfl, by simp⟩
      · simp only
        have hc : (traced H).count = H.count := rfl
        rw [hc]
        obtain ⟨t, a1, a2, a3⟩ := feedChunk_totals (H := H) (List.range H.count) d cs w tot h h1
          (by intro i hi; rw [h2]; exact List.mem_range.1 hi)
        generalize feedChunk (traced H) (List.range H.count) d cs w = z at *
        rcases z with ⟨(e | _), cs1, w1⟩
        · exact ⟨t, a1, a2, by simp⟩
        · simp only at a1 a2 a3
          obtain ⟨t2, b1, b2, b3⟩ := ih s2 cs1 w1 t a1 (by rw [a2]; exact a3 trivial) (by rw [a2, h2])
          exact ⟨t2, b1, by rw [b2, a2], by rw [a2] at b3; exact b3⟩

/-- Announcing and feeding a file. -/
theorem receiveFile_totals (fuel64 : Nat) (a : NewFileArgs) (s : LazyStream τ) (w : σ × List (Ev F)) (tot)
    (h : Totals w.2 tot) :
    ∃ tot', Totals (receiveFile (traced H) fuel64 a s w).2.2.2.2 tot' ∧
      (receiveFile (traced H) fuel64 a s w).2.2.1.length = H.count ∧
      ((receiveFile (traced H) fuel64 a s w).1 = .ok () →
        ∀ i < H.count, tot' i = (receiveFile (traced H) fuel64 a s w).2.2.1.getD i 0) := by
  unfold receiveFile
  simp only
  have hc : (traced H).count = H.count := rfl
  rw [hc]
  obtain ⟨t, a1, a2⟩ := newFiles_totals (H := H) a (List.range H.count) w tot h
  generalize newFiles (traced H) a (List.range H.count) w = z at *
  rcases z with ⟨(e | _), w1⟩
  · exact ⟨t, a1, by simp, by simp⟩
  · obtain ⟨t2, b1, b2, b3⟩ := fileLoop_totals (H := H) fuel64
      (decide (a.transferEncoding = some b!"base64")) (s.size + 1) s (List.replicate H.count 0) w1 t a1
      (by
        intro i hi
        simp only [List.length_replicate] at hi
        rw [a2 (.inl (by
          cases hn : H.count with
          | zero => omega
          | succ n => simp [List.range_succ_eq_map]))]
        simp [List.getD_eq_getElem?_getD, hi]) (by simp)
    simp only [List.length_replicate] at b2 b3
    exact ⟨t2, b1, b2, b3⟩

omit [Producer τ] in
/-- Events without influence on the totals. -/
theorem Totals.silent {log : List (Ev F)} {tot} (h : Totals log tot) {i : Nat} :
    Totals (log ++ [.raw i]) tot ∧ Totals (log ++ [.upload i]) tot ∧ Totals (log ++ [.close i]) tot :=
  ⟨h.snoc _, h.snoc _, h.snoc _⟩

omit [Producer τ] in
theorem closeFiles_totals : ∀ (is : List Nat) (w : σ × List (Ev F)) (tot), Totals w.2 tot →
    Totals (closeFiles (traced H) is w).2.2 tot := by
  intro is
  induction is with
  | nil => intro w tot h; exact h
  | cons i is ih =>
    intro w tot h
    simp only [closeFiles, traced]
    rcases H.close i w.1 with ⟨(e | _), w'⟩
    · exact h.silent.2.2
    · exact ih (w', _) tot h.silent.2.2

omit [Producer τ] in
theorem uploadCompleteLoop_totals : ∀ (is : List Nat) (w : σ × List (Ev F)) (tot), Totals w.2 tot →
    Totals (uploadCompleteLoop (traced H) is w).2.2 tot := by
  intro is
  induction is with
  | nil => intro w tot h; exact h
  | cons i is ih =>
    intro w tot h
    simp only [uploadCompleteLoop, traced]
    rcases H.uploadComplete i w.1 with ⟨(e | b), w'⟩
    · exact h.silent.2.1
    · cases b
      · exact ih (w', _) tot h.silent.2.1
      · exact h.silent.2.1

omit [Producer τ] in
theorem completeLoop_totals (cs : List Nat) : ∀ (is : List Nat) (w : σ × List (Ev F)) (tot),
    Totals w.2 tot → (∀ i ∈ is, tot i = cs.getD i 0) →
    Totals (completeLoop (traced H) cs is w).2.2 tot := by
  intro is
  induction is with
  | nil => intro w tot h _; exact h
  | cons i is ih =>
    intro w tot h h1
    have hs : Totals (w.2 ++ [.complete i (cs.getD i 0) (H.fileComplete i (cs.getD i 0) w.1).1]) tot := by
      unfold Totals
      rw [h.snoc]
      rw [← h1 i (by simp)]; simp [followOffsets]
    have h2 : ∀ i ∈ is, tot i = cs.getD i 0 := fun j hj => h1 j (List.mem_cons_of_mem _ hj)
    simp only [completeLoop, traced]
    generalize H.fileComplete i (cs.getD i 0) w.1 = z at *
    rcases z with ⟨(e | (_ | f)), w'⟩
    · exact hs
    · exact ih (w', _) tot hs h2
    · simp only
      by_cases ht : H.truthy f w' = true
      · simp only [ht, if_true]; exact hs
      · simp only [ht, if_false, Bool.false_eq_true]; exact ih (w', _) tot hs h2

/-- The invariant of the loop over the parts. -/
def Off (n : Nat) (st : PState (σ × List (Ev F)) F) : Prop :=
  ∃ tot, Totals st.world.2 tot ∧
    (∀ c name, st.oldField = some (c :: name) → ∀ i < n, tot i = st.counters.getD i 0)

omit [Producer τ] in
theorem completeOld_off (st : PState (σ × List (Ev F)) F) (h : Off H.count st) :
    (∃ tot, Totals (completeOld (traced H) st).2.world.2 tot) ∧
    ((completeOld (traced H) st).1 = .ok () →
      ∀ c name, (completeOld (traced H) st).2.oldField ≠ some (c :: name)) := by
  obtain ⟨world, post, files, oldField, counters, numBytes, numKeys⟩ := st
  obtain ⟨tot, h1, h2⟩ := h
  unfold completeOld
  cases oldField with
  | none => exact ⟨⟨tot, h1⟩, by simp⟩
  | some n =>
    cases n with
    | nil => exact ⟨⟨tot, h1⟩, by simp⟩
    | cons c n =>
      simp only [handleFileComplete]
      have hc : (traced H).count = H.count := rfl
      rw [hc]
      have := completeLoop_totals (H := H) counters (List.range H.count) world tot h1
        (fun i hi => h2 c n rfl i (List.mem_range.1 hi))
      generalize completeLoop (traced H) counters (List.range H.count) world = z at *
      rcases z with ⟨(e | (_ | f)), w1⟩
      · exact ⟨⟨tot, this⟩, by simp⟩
      · exact ⟨⟨tot, this⟩, by simp⟩
      · exact ⟨⟨tot, this⟩, by simp⟩

omit [Producer τ] in
theorem storeField_oldField (C : Codecs) (S : Settings) (name te md raw) (st : PState σ F) :
    (storeField C S name te md raw st).2.oldField = st.oldField := by
  unfold storeField
  simp only
  split
  · rfl
  · split
    · rfl
    · split <;> rfl

theorem handlePart_off (C : Codecs) (S : Settings) (fuel64 : Nat) (t : ItemType) (md : MetaData)
    (s : LazyStream τ) (st : PState (σ × List (Ev F)) F) (h : Off H.count st) :
    (∃ tot, Totals (handlePart C S (traced H) fuel64 t md s st).2.2.world.2 tot) ∧
    ((handlePart C S (traced H) fuel64 t md s st).1 = .ok () →
      Off H.count (handlePart C S (traced H) fuel64 t md s st).2.2) := by
  unfold handlePart
  obtain ⟨⟨tot, h1⟩, h2⟩ := completeOld_off st h
  generalize completeOld (traced H) st = z at *
  rcases z with ⟨(e | _), st1⟩
  · exact ⟨⟨tot, h1⟩, by simp⟩
  simp only at h1 h2 ⊢
  have h2 := h2 trivial
  have off : ∀ st2 : PState (σ × List (Ev F)) F, st2.world = st1.world → st2.oldField = st1.oldField →
      (∃ tot, Totals st2.world.2 tot) ∧ (∀ r : Except Exc Unit, r = .ok () → Off H.count st2) := by
    intro st2 e1 e2
    refine ⟨⟨tot, by rw [e1]; exact h1⟩, fun _ _ => ⟨tot, by rw [e1]; exact h1, ?_⟩⟩
    intro c n hn
    rw [e2] at hn
    exact absurd hn (h2 c n)
  cases partName md with
  | none => exact ⟨(off st1 rfl rfl).1, (off st1 rfl rfl).2 _⟩
  | some dn =>
    obtain ⟨d, n⟩ := dn
    simp only
    cases forceText n.strip with
    | error e => exact ⟨(off st1 rfl rfl).1, (off st1 rfl rfl).2 _⟩
    | ok name =>
      cases t with
      | raw => exact ⟨(off st1 rfl rfl).1, (off st1 rfl rfl).2 _⟩
      | field =>
        simp only [handleField]
        split
        · exact ⟨(off st1 rfl rfl).1, (off { st1 with numKeys := _ } rfl rfl).2 _⟩
        · generalize s.read (Option.map _ S.dataMaxMemory) = rd
          rcases rd with ⟨(e | raw), s1⟩
          · exact ⟨(off st1 rfl rfl).1, (off { st1 with numKeys := _ } rfl rfl).2 _⟩
          · have e1 := (storeField_world C S name (transferEnc md) md raw { st1 with numKeys := st1.numKeys + 1 }).1
            have e2 := storeField_oldField C S name (transferEnc md) md raw { st1 with numKeys := st1.numKeys + 1 }
            exact ⟨(off _ e1 e2).1, (off _ e1 e2).2 _⟩
      | file =>
        simp only [handleFile]
        cases hd : dispositionFileName d with
        | error e => exact ⟨(off st1 rfl rfl).1, (off st1 rfl rfl).2 _⟩
        | ok fn =>
          simp only
          split
          · exact ⟨(off st1 rfl rfl).1, (off st1 rfl rfl).2 _⟩
          · obtain ⟨t2, b1, b2, b3⟩ := receiveFile_totals (H := H) fuel64
              (fileArgs name fn (transferEnc md) md) s st1.world tot h1
            have hc : (traced H).count = H.count := rfl
            rw [hc]
            generalize receiveFile (traced H) fuel64 (fileArgs name fn (transferEnc md) md) s st1.world = z at *
            rcases z with ⟨(e | _), s1, cs, w1⟩
            · by_cases he : e = .skipFile
              · subst he
                simp only
                have h3 := closeFiles_totals (H := H) (List.range H.count) w1 t2 b1
                generalize closeFiles (traced H) (List.range H.count) w1 = z at *
                rcases z with ⟨(e | _), w2⟩
                · exact ⟨⟨t2, h3⟩, by simp⟩
                · simp only
                  rcases exhaust s1 with ⟨(e | _), s2⟩
                  · exact ⟨⟨t2, h3⟩, by simp⟩
                  · exact ⟨⟨t2, h3⟩, fun _ => ⟨t2, h3, fun c n hn => absurd hn (h2 c n)⟩⟩
              · cases e <;> first | exact ⟨⟨t2, b1⟩, by simp⟩ | exact absurd rfl he
            · exact ⟨⟨t2, b1⟩, fun _ => ⟨t2, b1, fun _ _ _ => b3 rfl⟩⟩

end

section
variable {ρ σ F : Type} [Producer ρ] {H : HandlerOps ρ σ F}

theorem partsLoop_off (C : Codecs) (S : Settings) (fuel64 : Nat) (sep : Bytes) :
    ∀ (fuel : Nat) (s : LazyStream (ChunkIter ρ)) (st : PState (σ × List (Ev F)) F), Off H.count st →
    ∃ tot, Totals (partsLoop C S (traced H) fuel64 sep fuel s st).2.2.world.2 tot := by
  intro fuel
  induction fuel with
  | zero => rintro s st ⟨tot, h, _⟩; exact ⟨tot, h⟩
  | succ fuel ih =>
    rintro s st h
    have h0 : ∃ tot, Totals st.world.2 tot := by obtain ⟨tot, h, _⟩ := h; exact ⟨tot, h⟩
    unfold partsLoop
    rcases nextPart s sep with ⟨(e | (_ | sub)), s1⟩
    · exact h0
    · exact h0
    · simp only
      rcases parseBoundaryStream C sub 1024 with ⟨(e | ⟨t, md⟩), sub1⟩
      · exact h0
      · simp only
        have := handlePart_off C S fuel64 t md sub1 st h
        generalize handlePart C S (traced H) fuel64 t md sub1 st = z at *
        rcases z with ⟨(e | _), sub2, st2⟩
        · exact this.1
        · exact ih _ st2 (this.2 rfl)

omit [Producer ρ] in
theorem rawInputLoop_totals (a : RawArgs) : ∀ (is : List Nat) (s : LazyStream ρ) (w : σ × List (Ev F)) (tot),
    Totals w.2 tot → Totals (rawInputLoop (traced H) a is s w).2.2.2 tot := by
  intro is
  induction is with
  | nil => intro s w tot h; exact h
  | cons i is ih =>
    intro s w tot h
    simp only [rawInputLoop, traced]
    rcases H.rawInput i a s w.1 with ⟨(e | (_ | r)), s', w'⟩
    · exact h.silent.1
    · exact ih s' (w', _) tot h.silent.1
    · exact h.silent.1

omit [Producer ρ] in
theorem finishParse_totals (s : LazyStream ρ) (st : PState (σ × List (Ev F)) F) (tot)
    (h : Totals st.world.2 tot) : ∃ tot, Totals (finishParse (traced H) s st).2.2.2 tot := by
  unfold finishParse
  have hc : (traced H).count = H.count := rfl
  rw [hc]
  have := uploadCompleteLoop_totals (H := H) (List.range H.count) st.world tot h
  generalize uploadCompleteLoop (traced H) (List.range H.count) st.world = z at *
  rcases z with ⟨(e | _), w⟩ <;> exact ⟨tot, this⟩

theorem parse_contiguous (C : Codecs) (S : Settings) (fuel64 : Nat) (m : MultiPart) (input : LazyStream ρ)
    (w : σ × List (Ev F)) (h : Contiguous w.2) :
    Contiguous (m.parse C S (traced H) fuel64 input w).2.2.2 := by
  obtain ⟨tot, h⟩ := h
  change Totals _ _ at h
  change ∃ tot, Totals _ tot
  unfold MultiPart.parse
  split
  · split <;> exact ⟨tot, h⟩
  · have h1 := rawInputLoop_totals (H := H) ⟨m.contentLength, m.boundary, S⟩ (List.range H.count) input w tot h
    have hc : (traced H).count = H.count := rfl
    rw [hc]
    generalize rawInputLoop (traced H) ⟨m.contentLength, m.boundary, S⟩ (List.range H.count) input w = z at *
    rcases z with ⟨(e | (_ | r)), s1, w1⟩
    · exact ⟨tot, h1⟩
    · simp only
      cases emptyQueryDict C S with
      | error e => exact ⟨tot, h1⟩
      | ok u =>
        simp only
        obtain ⟨t2, h2⟩ := partsLoop_off (H := H) C S fuel64 (b!"--" ++ m.boundary)
          ((LazyStream.mk' (⟨s1, m.chunkSize⟩ : ChunkIter ρ)).size + 1)
          (LazyStream.mk' ⟨s1, m.chunkSize⟩) { world := w1, counters := List.replicate H.count 0 }
          ⟨tot, h1, by simp⟩
        generalize partsLoop C S (traced H) fuel64 (b!"--" ++ m.boundary)
          ((LazyStream.mk' (⟨s1, m.chunkSize⟩ : ChunkIter ρ)).size + 1)
          (LazyStream.mk' ⟨s1, m.chunkSize⟩) { world := w1, counters := List.replicate H.count 0 } = z at *
        rcases z with ⟨(e | _), body, st⟩
        · by_cases he : ∃ b, e = .stopUpload b
          · obtain ⟨b, rfl⟩ := he
            simp only
            have h3 := closeFiles_totals (H := H) (List.range H.count) st.world t2 h2
            generalize closeFiles (traced H) (List.range H.count) st.world = z at *
            rcases z with ⟨(e | _), w2⟩
            · exact ⟨t2, h3⟩
            · simp only
              split
              · exact finishParse_totals _ _ t2 h3
              · rcases exhaust body.producer.flo with ⟨(e | _), s3⟩
                · exact ⟨t2, h3⟩
                · exact finishParse_totals _ _ t2 h3
          · cases e <;> first | exact ⟨t2, h2⟩ | exact absurd ⟨_, rfl⟩ he
        · simp only
          rcases exhaust body.producer.flo with ⟨(e | _), s3⟩
          · exact ⟨t2, h2⟩
          · exact finishParse_totals _ _ t2 h2
    · exact ⟨tot, h1⟩

end
end Verif
