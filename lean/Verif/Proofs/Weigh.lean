import Verif.Proofs.Tracks
import Verif.Proofs.Offsets
import Verif.Proofs.ParseErr
import Verif.Proofs.ParseLimits
import Verif.Proofs.ParseSpin
/-! Counting the bytes that are kept of a body. -/

namespace Verif
open Spec

/-- `Idle n w fs`: between files, when the collected files `fs` have at most `n` bytes; `Busy n w fs`: while a file
arrives, when it and `fs` have at most `n` bytes. -/
structure HandlerOps.Weighs {ρ σ F : Type} (H : HandlerOps ρ σ F) (Idle Busy : Nat → σ → List F → Prop) : Prop where
  mono : ∀ n m w fs, n ≤ m → Busy n w fs → Busy m w fs
  monoIdle : ∀ n m w fs, n ≤ m → Idle n w fs → Idle m w fs
  perm : ∀ n w fs fs', fs.Perm fs' → Idle n w fs → Idle n w fs'
  idle : ∀ n w fs, Busy n w fs → Idle n w fs
  newFiles : ∀ n a w fs, Idle n w fs → Idle n (newFiles H a (List.range H.count) w).2 fs ∧
    ((newFiles H a (List.range H.count) w).1 = .ok () → Busy n (newFiles H a (List.range H.count) w).2 fs)
  receive : ∀ n i d k w fs, Busy n w fs → Busy (n + d.length) (H.receive i d k w).2 fs
  passes : ∀ n i d k w fs d', Busy n w fs → (H.receive i d k w).1 = .ok (some d') →
    d'.length ≤ d.length ∧ Busy n (H.receive i d k w).2 fs
  fileComplete : ∀ n i k w fs, Busy n w fs → Busy n (H.fileComplete i k w).2 fs
  complete : ∀ n i k w fs f, Busy n w fs → (H.fileComplete i k w).1 = .ok (some f) →
    Idle n (H.fileComplete i k w).2 (f :: fs)
  uploadComplete : ∀ n i w fs, Idle n w fs → Idle n (H.uploadComplete i w).2 fs
  close : ∀ n i w fs, Idle n w fs → Idle n (H.close i w).2 fs

/-- The bytes of all fields. -/
def fieldBytes (d : MVD PostItem) : Nat := ((filesOf d).map fun p => p.data.length).sum

theorem fieldBytes_append (d : MVD PostItem) (k : Bytes) (p : PostItem) :
    fieldBytes (d.append k p) = fieldBytes d + p.data.length := by
  unfold fieldBytes
  have := ((filesOf_append (k := k) (v := p) (d := d)).map fun p => p.data.length).sum_nat
  rw [← this]
  simp [Nat.add_comm]

theorem fieldBytes_clear (k : Bytes) (d : MVD PostItem) : fieldBytes (Dict.set d k []) ≤ fieldBytes d := by
  have := items_clear (fun p => p.2.data.length) k d
  simpa [fieldBytes, filesOf, List.map_map, Function.comp_def] using this

section
variable {ρ σ F : Type} {H : HandlerOps ρ σ F} {Idle Busy : Nat → σ → List F → Prop}

theorem feedChunk_weighs (hk : H.Weighs Idle Busy) (fs : List F) : ∀ (is : List Nat) (d : Bytes) (cs : List Nat) (w : σ) (n : Nat),
    Busy n w fs → Busy (n + d.length) (feedChunk H is d cs w).2.2 fs := by
  intro is
  induction is with
  | nil => intro d cs w n h; exact hk.mono _ _ _ _ (Nat.le_add_right _ _) h
  | cons i is ih =>
    intro d cs w n h
    have h1 := hk.receive n i d (cs.getD i 0) w fs h
    have h2 := hk.passes n i d (cs.getD i 0) w fs
    unfold feedChunk
    generalize H.receive i d (cs.getD i 0) w = z at *
    rcases z with ⟨(e | (_ | d')), w'⟩
    · exact h1
    · exact h1
    · obtain ⟨h3, h4⟩ := h2 d' h rfl
      exact hk.mono _ _ _ _ (by omega) (ih d' _ w' n h4)

theorem FileRun.weighs (hk : H.Weighs Idle Busy) (fs : List F) {fuel64 : Nat} {b64 : Bool} {content : Bytes} {cs cs' : List Nat}
    {w w' : σ} {r : Except Exc Unit} (h : FileRun H fuel64 b64 content cs w r cs' w') :
    ∀ n, Busy n w fs → Busy (n + content.length) w' fs := by
  have len : ∀ raw chunk : Bytes, (b64 = false → chunk = raw) →
      (b64 = true → (Py.removeSpaces raw).length % 4 = 0 ∧ Py.b64decode (Py.removeSpaces raw) = some chunk) →
      chunk.length ≤ raw.length := by
    intro raw chunk h1 h2
    cases b64 with
    | false => rw [h1 rfl]
    | true => exact Nat.le_trans (b64decode_length (h2 rfl).2) (List.length_filter_le _ _)
  induction h with
  | stop => intro n h; exact h
  | @step raw rest chunk cs w cs1 w1 r cs' w' h1 h2 h3 _ ih =>
    intro n h
    have := feedChunk_weighs hk fs (List.range H.count) chunk cs w n h
    rw [h3] at this
    have := ih _ this
    have hl := len raw chunk h1 h2
    exact hk.mono _ _ _ _ (by simp; omega) this
  | @fail raw rest chunk cs w e cs1 w1 h1 h2 h3 =>
    intro n h
    have := feedChunk_weighs hk fs (List.range H.count) chunk cs w n h
    rw [h3] at this
    have hl := len raw chunk h1 h2
    exact hk.mono _ _ _ _ (by simp; omega) this
  | badBase64 => intro n h; exact hk.mono _ _ _ _ (Nat.le_add_right _ _) h
  | spin => intro n h; exact hk.mono _ _ _ _ (Nat.le_add_right _ _) h

theorem RecvRun.weighs (hk : H.Weighs Idle Busy) (fs : List F) {fuel64 : Nat} {a : NewFileArgs} {content : Bytes} {cs : List Nat}
    {w w' : σ} {r : Except Exc Unit} (h : RecvRun H fuel64 a content w r cs w') (n : Nat) (hw : Idle n w fs) :
    Idle (n + content.length) w' fs ∧ (r = .ok () → Busy (n + content.length) w' fs) := by
  have hn := hk.newFiles n a w fs hw
  cases h with
  | refused h1 =>
    rw [h1] at hn
    exact ⟨hk.monoIdle _ _ _ _ (Nat.le_add_right _ _) hn.1, by simp⟩
  | fed h1 h2 =>
    rw [h1] at hn
    have := h2.weighs hk fs n (hn.2 rfl)
    exact ⟨hk.idle _ _ _ this, fun _ => this⟩

theorem completeLoop_weighs (hk : H.Weighs Idle Busy) (fs : List F) (cs : List Nat) (n : Nat) : ∀ (is : List Nat) (w : σ), Busy n w fs →
    Idle n (completeLoop H cs is w).2 fs ∧
    ∀ f, (completeLoop H cs is w).1 = .ok (some f) → Idle n (completeLoop H cs is w).2 (f :: fs) := by
  intro is
  induction is with
  | nil => intro w h; exact ⟨hk.idle _ _ _ h, by simp [completeLoop]⟩
  | cons i is ih =>
    intro w h
    have h1 := hk.fileComplete n i (cs.getD i 0) w fs h
    have h2 := hk.complete n i (cs.getD i 0) w fs
    unfold completeLoop
    generalize H.fileComplete i (cs.getD i 0) w = z at *
    rcases z with ⟨(e | (_ | f)), w'⟩
    · exact ⟨hk.idle _ _ _ h1, by simp⟩
    · exact ih w' h1
    · simp only
      split
      · refine ⟨hk.idle _ _ _ h1, ?_⟩
        intro f' hf
        simp only [Except.ok.injEq, Option.some.injEq] at hf
        subst hf
        exact h2 f h rfl
      · exact ih w' h1

theorem closeFiles_weighs (hk : H.Weighs Idle Busy) (fs : List F) (n : Nat) : ∀ (is : List Nat) (w : σ), Idle n w fs →
    Idle n (closeFiles H is w).2 fs := by
  intro is
  induction is with
  | nil => intro w h; exact h
  | cons i is ih =>
    intro w h
    have := hk.close n i w fs h
    unfold closeFiles
    generalize H.close i w = z at *
    rcases z with ⟨(e | _), w'⟩
    · exact this
    · exact ih w' this

theorem uploadCompleteLoop_weighs (hk : H.Weighs Idle Busy) (fs : List F) (n : Nat) : ∀ (is : List Nat) (w : σ), Idle n w fs →
    Idle n (uploadCompleteLoop H is w).2 fs := by
  intro is
  induction is with
  | nil => intro w h; exact h
  | cons i is ih =>
    intro w h
    have := hk.uploadComplete n i w fs h
    unfold uploadCompleteLoop
    generalize H.uploadComplete i w = z at *
    rcases z with ⟨(e | b), w'⟩
    · exact this
    · cases b
      · exact ih w' this
      · exact this

/-- At most `n` bytes are kept: in fields, in complete files and in the file that arrives. -/
structure PState.Weighed (Idle Busy : Nat → σ → List F → Prop) (n : Nat) (st : PState σ F) : Prop where
  idle : ∃ k, k + fieldBytes st.post ≤ n ∧ Idle k st.world (filesOf st.files) ∧
    ∀ c m, st.oldField = some (c :: m) → Busy k st.world (filesOf st.files)

theorem completeOld_weighs (hk : H.Weighs Idle Busy) (n : Nat) (st : PState σ F) (h : st.Weighed Idle Busy n) :
    (completeOld H st).2.Weighed Idle (fun _ _ _ => True) n ∧
    ((completeOld H st).1 = .ok () → ∀ c n, (completeOld H st).2.oldField ≠ some (c :: n)) := by
  obtain ⟨world, post, files, oldField, counters, numBytes, numKeys⟩ := st
  obtain ⟨k, h1, h2, h3⟩ := h.idle
  unfold completeOld
  cases oldField with
  | none => exact ⟨⟨k, h1, h2, by simp⟩, by simp⟩
  | some m =>
    cases m with
    | nil => exact ⟨⟨k, h1, h2, by simp⟩, by simp⟩
    | cons c m =>
      simp only [handleFileComplete]
      have := completeLoop_weighs hk (filesOf files) counters k (List.range H.count) world (h3 c m rfl)
      generalize completeLoop H counters (List.range H.count) world = z at *
      rcases z with ⟨(e | (_ | f)), w1⟩
      · exact ⟨⟨k, h1, this.1, by simp⟩, by simp⟩
      · exact ⟨⟨k, h1, this.1, by simp⟩, by simp⟩
      · exact ⟨⟨k, h1, hk.perm _ _ _ _ filesOf_append (this.2 f rfl), by simp⟩, by simp⟩

theorem storeField_bytes (C : Codecs) (S : Settings) (name te md raw) (st : PState σ F) :
    fieldBytes (storeField C S name te md raw st).2.post ≤ fieldBytes st.post + raw.length := by
  unfold storeField
  simp only
  split
  · simp
  · rename_i data hd
    split
    · simp
    · split
      · simp
      · rename_i post hp
        obtain ⟨key, _, hap⟩ := postAppend_ok hp
        have : data.length ≤ raw.length := by
          split at hd
          · exact b64decode_length hd
          · simp only [Option.some.injEq] at hd
            rw [hd]
        rcases hap with rfl | ⟨_, k', _, _, rfl⟩
        · simp only [fieldBytes_append]
          omega
        · have := fieldBytes_clear k' st.post
          simp only at this ⊢
          omega

/-- What a part adds is at most its content, and nothing if it is passed over. -/
theorem PartRun.weighs (hk : H.Weighs Idle Busy) {C : Codecs} {S : Settings} {fuel64 : Nat} {t md content}
    {st st' : PState σ F} {b : Bool} {r : Except Exc Unit} (h : PartRun C S H fuel64 t md content st b r st')
    (n : Nat) (hst : st.Weighed Idle Busy n) :
    ∃ k, st'.Weighed Idle (fun _ _ _ => True) (n + k) ∧ (r = .ok () → st'.Weighed Idle Busy (n + k)) ∧
      (k = 0 ∨ (k = content.length ∧ t ≠ .raw ∧ (b = true ∨ r ≠ .ok ()))) := by
  obtain ⟨hc, ho⟩ := completeOld_weighs hk n st hst
  -- a state that differs from the one after `completeOld` in nothing that counts
  have same : ∀ st1 st2 : PState σ F, completeOld H st = (.ok (), st1) → st2.world = st1.world → st2.files = st1.files →
      st2.post = st1.post → st2.oldField = st1.oldField →
      ∃ k, st2.Weighed Idle (fun _ _ _ => True) (n + k) ∧ st2.Weighed Idle Busy (n + k) ∧ k = 0 := by
    intro st1 st2 h1 e1 e2 e3 e4
    rw [h1] at hc ho
    obtain ⟨k, h2, h3, _⟩ := hc.idle
    refine ⟨0, ⟨k, by rw [e3]; exact h2, by rw [e1, e2]; exact h3, by simp⟩,
      ⟨k, by rw [e3]; exact h2, by rw [e1, e2]; exact h3, ?_⟩, rfl⟩
    intro c m hm
    rw [e4] at hm
    exact absurd hm (ho rfl c m)
  cases h with
  | completeErr h1 =>
    rw [h1] at hc
    exact ⟨0, hc, by simp, .inl rfl⟩
  | skip h1 =>
    obtain ⟨k, s1, s2, s3⟩ := same _ st' h1 rfl rfl rfl rfl
    exact ⟨k, s1, fun _ => s2, .inl s3⟩
  | nameErr h1 =>
    obtain ⟨k, s1, s2, s3⟩ := same _ st' h1 rfl rfl rfl rfl
    exact ⟨k, s1, fun _ => s2, .inl s3⟩
  | @tooMany st1 _ _ _ h1 =>
    obtain ⟨k, s1, s2, s3⟩ := same _ { st1 with numKeys := st1.numKeys + 1 } h1 rfl rfl rfl rfl
    exact ⟨k, s1, fun _ => s2, .inl s3⟩
  | @negative st1 _ _ _ h1 =>
    obtain ⟨k, s1, s2, s3⟩ := same _ { st1 with numKeys := st1.numKeys + 1 } h1 rfl rfl rfl rfl
    exact ⟨k, s1, fun _ => s2, .inl s3⟩
  | @field st1 d m name raw _ _ h1 _ _ h4 _ _ h7 h8 _ =>
    have e1 := storeField_world C S name (transferEnc md) md raw { st1 with numKeys := st1.numKeys + 1 }
    have e2 := storeField_oldField C S name (transferEnc md) md raw { st1 with numKeys := st1.numKeys + 1 }
    have e3 := storeField_bytes C S name (transferEnc md) md raw { st1 with numKeys := st1.numKeys + 1 }
    rw [h8] at e1 e2 e3
    simp only at e1 e2 e3
    rw [h1] at hc ho
    obtain ⟨k, h2, h3, _⟩ := hc.idle
    have hraw : raw.length ≤ content.length := by
      rw [h7]
      split
      · exact Nat.le_refl _
      · exact List.length_take_le' _ _
    refine ⟨content.length, ⟨k, by simp only at h2; omega, by rw [e1.1, e1.2]; exact h3, by simp⟩,
      fun _ => ⟨k, by simp only at h2; omega, by rw [e1.1, e1.2]; exact h3, ?_⟩, .inr ⟨rfl, by rw [h4]; simp, ?_⟩⟩
    · intro c m hm
      rw [e2] at hm
      exact absurd hm (ho rfl c m)
    · by_cases hr : r = .ok ()
      · exact .inl (by simp [hr])
      · exact .inr hr
  | fileNameErr h1 =>
    obtain ⟨k, s1, s2, s3⟩ := same _ st' h1 rfl rfl rfl rfl
    exact ⟨k, s1, fun _ => s2, .inl s3⟩
  | noFileName h1 =>
    obtain ⟨k, s1, s2, s3⟩ := same _ st' h1 rfl rfl rfl rfl
    exact ⟨k, s1, fun _ => s2, .inl s3⟩
  | @file st1 d m name fn cs w h1 _ _ h4 _ _ h7 =>
    rw [h1] at hc
    obtain ⟨k, h2, h3, _⟩ := hc.idle
    obtain ⟨g1, g2⟩ := h7.weighs hk _ k h3
    exact ⟨content.length, ⟨k + content.length, by simp only at h2 ⊢; omega, g1, by simp⟩,
      fun _ => ⟨k + content.length, by simp only at h2 ⊢; omega, g1, fun _ _ _ => g2 rfl⟩, .inr ⟨rfl, by rw [h4]; simp, .inl rfl⟩⟩
  | @fileSkip st1 d m name fn cs w _ w' h1 _ _ h4 _ _ h7 h8 =>
    rw [h1] at hc ho
    obtain ⟨k, h2, h3, _⟩ := hc.idle
    obtain ⟨g1, g2⟩ := h7.weighs hk _ k h3
    have g3 := closeFiles_weighs hk _ _ (List.range H.count) w g1
    rw [h8] at g3
    refine ⟨content.length, ⟨k + content.length, by simp only at h2 ⊢; omega, g3, by simp⟩,
      fun _ => ⟨k + content.length, by simp only at h2 ⊢; omega, g3, fun c m hm => absurd hm (ho rfl c m)⟩,
      .inr ⟨rfl, by rw [h4]; simp, ?_⟩⟩
    by_cases hr : r = .ok ()
    · exact .inl (by simp [hr])
    · exact .inr hr
  | @fileErr st1 d m name fn e cs w h1 _ _ h4 _ _ h7 h8 =>
    rw [h1] at hc
    obtain ⟨k, h2, h3, _⟩ := hc.idle
    obtain ⟨g1, g2⟩ := h7.weighs hk _ k h3
    exact ⟨content.length, ⟨k + content.length, by simp only at h2 ⊢; omega, g1, by simp⟩, by simp,
      .inr ⟨rfl, by rw [h4]; simp, .inr (by simp)⟩⟩

theorem cut_after_length (sep D : Bytes) : (cut sep D).length + (after sep D).length ≤ D.length := by
  rcases cut_after_Cut sep D with ⟨pre, h1, _, h3⟩ | ⟨_, h, h'⟩
  · have : (stripEol pre).length ≤ pre.length := by
      unfold stripEol
      split <;> (try (rename_i h; have := congrArg List.length h; simp at this; simp; omega)) <;> simp
    have h2 := congrArg List.length h1
    rw [h3]
    simp only [List.length_append] at h2
    omega
  · rw [h, h']; simp

theorem PartHead.content_length {C : Codecs} {P : Bytes} {t md content} (h : PartHead C P t md content) (ht : t ≠ .raw) :
    content.length ≤ P.length := by
  cases h with
  | noHeader => exact absurd rfl ht
  | header => simp
  | rawHeader => exact absurd rfl ht

theorem Parses.weighs (hk : H.Weighs Idle Busy) {C : Codecs} {S : Settings} {fuel64 : Nat} {sep D D' : Bytes}
    {st st' : PState σ F} {r : Except Exc Unit} (h : Parses C S H fuel64 sep D st r D' st') :
    ∀ n, st.Weighed Idle Busy n → st'.Weighed Idle (fun _ _ _ => True) (n + D.length) := by
  have weaken : ∀ n m (st : PState σ F), n ≤ m → st.Weighed Idle Busy n → st.Weighed Idle (fun _ _ _ => True) m := by
    rintro n m st hnm ⟨k, h1, h2, _⟩
    exact ⟨k, by omega, h2, by simp⟩
  have weaken' : ∀ n m (st : PState σ F), n ≤ m → st.Weighed Idle (fun _ _ _ => True) n →
      st.Weighed Idle (fun _ _ _ => True) m := by
    rintro n m st hnm ⟨k, h1, h2, _⟩
    exact ⟨k, by omega, h2, by simp⟩
  induction h with
  | done => intro n h; exact weaken _ _ _ (Nat.le_refl _) h
  | headErr => intro n h; exact weaken _ _ _ (Nat.le_add_right _ _) h
  | @partErr D D' st t md content b e st' h1 h2 h3 h4 =>
    intro n h
    obtain ⟨k, k1, _, k3⟩ := h3.weighs hk n h
    have hc := (cut_prefix sep D).length_le
    refine weaken' _ _ _ ?_ k1
    rcases k3 with rfl | ⟨rfl, k4, _⟩
    · omega
    · have := h2.content_length k4
      omega
  | @part D D' D'' st t md content b st' r st'' h1 h2 h3 h4 h5 h6 _ ih =>
    intro n h
    obtain ⟨k, _, k2, k3⟩ := h3.weighs hk n h
    have := ih _ (k2 rfl)
    refine weaken' _ _ _ ?_ this
    rcases k3 with rfl | ⟨rfl, k4, k5⟩
    · omega
    · have hb : b = true := by
        rcases k5 with k5 | k5
        · exact k5
        · exact absurd rfl k5
      rw [h6 (.inl hb)]
      have := h2.content_length k4
      have := cut_after_length sep D
      omega

end

section
variable {ρ σ F : Type} [Producer ρ] {L : Lawful ρ} {H : HandlerOps ρ σ F} {Idle Busy : Nat → σ → List F → Prop}

/-- The fields and files of a form together have at most as many bytes as the body. -/
theorem parse_weighs (hk : H.Weighs Idle Busy) (C : Codecs) (S : Settings) (fuel64 : Nat) (m : MultiPart) (hc : 1 ≤ m.chunkSize)
    (hl : LeavesParsing L H) (input : LazyStream ρ) (w : σ) (hi : SOK L input) (h0 : Idle 0 w [])
    (hw : ∀ a input input1 w1, rawInputLoop H a (List.range H.count) input w = (.ok none, input1, w1) → Idle 0 w1 [])
    {post files s' w'} (h : m.parse C S H fuel64 input w = (.ok (post, files), s', w')) :
    ∃ k, k + fieldBytes post ≤ (L.sc input).length ∧ Idle k w' (filesOf files) := by
  rcases parse_elim C S H fuel64 m hc hl input w hi with
    ⟨e, _, _, h1, _⟩ | ⟨_, _, h1⟩ | ⟨_, _, input1, w1, r, D', st', s2, R, w2, h2, _, hsuf, h3, h4, h5, _⟩
  · rw [h] at h1; simp at h1
  · rw [h] at h1
    simp only [Prod.mk.injEq, Except.ok.injEq] at h1
    obtain ⟨⟨rfl, rfl⟩, _, rfl⟩ := h1
    exact ⟨0, by simp [fieldBytes, filesOf, items], by simpa [filesOf, items] using h0⟩
  · rw [h] at h3
    simp only [Prod.mk.injEq] at h3
    obtain ⟨rfl, _, rfl⟩ := h3
    obtain ⟨k, k1, k2, _⟩ := (h4.weighs hk 0 ⟨0, by simp [PState.start, fieldBytes, filesOf, items],
      by simpa [PState.start, filesOf, items] using hw _ _ _ _ h2, by simp [PState.start]⟩).idle
    have hlen := hsuf.length_le
    have fin : ∀ w0, Idle k w0 (filesOf st'.files) → ∀ w3,
        (match uploadCompleteLoop H (List.range H.count) w0 with
          | (.error e, w) => (.error e, w)
          | (.ok (), w) => (.ok (st'.post, st'.files), w) : Except Exc (MVD PostItem × MVD F) × σ) = (.ok (post, files), w3) →
        ∃ k, k + fieldBytes post ≤ (L.sc input).length ∧ Idle k w3 (filesOf files) := by
      intro w0 hw0 w3 he
      have hu := uploadCompleteLoop_weighs hk _ k (List.range H.count) w0 hw0
      rcases hz : uploadCompleteLoop H (List.range H.count) w0 with ⟨(e | _), w4⟩
      · rw [hz] at he; simp at he
      · rw [hz] at he hu
        simp only [Prod.mk.injEq, Except.ok.injEq] at he
        obtain ⟨⟨rfl, rfl⟩, rfl⟩ := he
        exact ⟨k, by omega, hu⟩
    unfold endParse at h5
    split at h5
    · exact fin _ k2 _ h5
    · have hcl := closeFiles_weighs hk _ k (List.range H.count) _ k2
      rcases hz : closeFiles H (List.range H.count) st'.world with ⟨(e | _), w4⟩
      · rw [hz] at h5; simp at h5
      · rw [hz] at h5 hcl
        exact fin _ hcl _ h5
    · simp at h5

end
end Verif
