import Verif.Proofs.Offsets
/-! Files in the result were received completely (C25). -/

namespace Verif
open Spec

section
variable {ρ σ F : Type} {H : HandlerOps ρ σ F}

theorem dataOf_append (a b : List (Ev F)) : dataOf (a ++ b) = dataOf a ++ dataOf b := by
  induction a with
  | nil => rfl
  | cons e a ih =>
    rw [List.cons_append]
    rcases e with i | ⟨i, a⟩ | ⟨i, d, n⟩ | ⟨i, n, r⟩ | i | i
    · exact ih
    · exact ih
    · cases i with
      | zero => simp only [dataOf, ih, List.append_assoc]
      | succ i => exact ih
    · exact ih
    · exact ih
    · exact ih

/-- No file is announced to handler 0 in this part of the log. -/
def NoNew (l : List (Ev F)) : Prop := ∀ e ∈ l, ∀ a, e ≠ .newFile 0 a

theorem NoNew.append {a b : List (Ev F)} (ha : NoNew a) (hb : NoNew b) : NoNew (a ++ b) := by
  intro e he
  rcases List.mem_append.1 he with h | h
  · exact ha e h
  · exact hb e h

/-- The log only grows. -/
theorem traced_grows (l : List (Ev F)) :
    (traced H).Keeps (fun w => l <+: w.2) (fun _ => True) (fun _ => True) where
  newFiles := newFiles_of_newFile fun _ _ _ h _ => h.trans (List.prefix_append _ _)
  receive _ _ _ _ h := h.trans (List.prefix_append _ _)
  fileComplete _ _ _ h := h.trans (List.prefix_append _ _)
  complete _ _ _ _ _ _ := trivial
  uploadComplete _ _ h := h.trans (List.prefix_append _ _)
  close _ _ h := h.trans (List.prefix_append _ _)

theorem newFiles_log (a : NewFileArgs) : ∀ (is : List Nat) (w : σ × List (Ev F)),
    ∃ l, (newFiles (traced H) a is w).2.2 = w.2 ++ l ∧
      (∀ e ∈ l, ∃ i ∈ is, e = .newFile i a) ∧
      (∀ i, is.head? = some i → ∃ l', l = .newFile i a :: l' ∧ ∀ e ∈ l', ∃ j ∈ is.tail, e = .newFile j a) := by
  intro is
  induction is with
  | nil => intro w; exact ⟨[], by simp [newFiles], by simp, by simp⟩
  | cons i is ih =>
    intro w
    simp only [newFiles, traced]
    rcases H.newFile i a w.1 with ⟨(e | _), w'⟩
    · refine ⟨[.newFile i a], by cases e <;> rfl, by simp, by simp⟩
    · obtain ⟨l, h1, h2, _⟩ := ih (w', w.2 ++ [.newFile i a])
      refine ⟨.newFile i a :: l, ?_, ?_, ?_⟩
      · simp only [List.append_assoc, List.singleton_append] at h1
        exact h1
      · intro e he
        rcases List.mem_cons.1 he with rfl | he
        · exact ⟨i, by simp, rfl⟩
        · obtain ⟨j, hj, rfl⟩ := h2 e he
          exact ⟨j, List.mem_cons_of_mem _ hj, rfl⟩
      · intro j hj
        simp at hj; subst hj
        exact ⟨l, rfl, h2⟩

theorem feedChunk_log : ∀ (is : List Nat) (d : Bytes) (cs : List Nat) (w : σ × List (Ev F)),
    ∃ l, (feedChunk (traced H) is d cs w).2.2.2 = w.2 ++ l ∧
      (∀ e ∈ l, ∃ i ∈ is, ∃ d n, e = .receive i d n) ∧
      (∀ i, is.head? = some i → ∃ n l', l = .receive i d n :: l' ∧
        ∀ e ∈ l', ∃ j ∈ is.tail, ∃ d n, e = .receive j d n) := by
  intro is
  induction is with
  | nil => intro d cs w; exact ⟨[], by simp [feedChunk], by simp, by simp⟩
  | cons i is ih =>
    intro d cs w
    simp only [feedChunk, traced]
    rcases H.receive i d (cs.getD i 0) w.1 with ⟨(e | (_ | d')), w'⟩
    · exact ⟨[.receive i d (cs.getD i 0)], rfl, by simp, by simp⟩
    · exact ⟨[.receive i d (cs.getD i 0)], rfl, by simp, by simp⟩
    · obtain ⟨l, h1, h2, _⟩ := ih d' (cs.set i (cs.getD i 0 + d.length))
        (w', w.2 ++ [.receive i d (cs.getD i 0)])
      refine ⟨.receive i d (cs.getD i 0) :: l, ?_, ?_, ?_⟩
      · simp only [List.append_assoc, List.singleton_append] at h1
        exact h1
      · intro e he
        rcases List.mem_cons.1 he with rfl | he
        · exact ⟨i, by simp, _, _, rfl⟩
        · obtain ⟨j, hj, h⟩ := h2 e he
          exact ⟨j, List.mem_cons_of_mem _ hj, h⟩
      · intro j hj
        simp at hj; subst hj
        exact ⟨_, l, rfl, h2⟩

theorem completeLoop_log (cs : List Nat) : ∀ (is : List Nat) (w : σ × List (Ev F)) (f : F),
    (completeLoop (traced H) cs is w).1 = .ok (some f) →
    ∃ l i size, (completeLoop (traced H) cs is w).2.2 = w.2 ++ l ++ [.complete i size (.ok (some f))] ∧
      NoNew l ∧ dataOf l = [] := by
  intro is
  induction is with
  | nil => intro w f h; simp [completeLoop] at h
  | cons i is ih =>
    intro w f
    simp only [completeLoop, traced]
    have step : ∀ r (w' : σ), (completeLoop (traced H) cs is (w', w.2 ++ [.complete i (cs.getD i 0) r])).1
          = .ok (some f) →
        ∃ l j size, (completeLoop (traced H) cs is (w', w.2 ++ [.complete i (cs.getD i 0) r])).2.2 =
          w.2 ++ l ++ [.complete j size (.ok (some f))] ∧ NoNew l ∧ dataOf l = [] := by
      intro r w' h
      obtain ⟨l, j, size, h1, h2, h3⟩ := ih _ f h
      refine ⟨[.complete i (cs.getD i 0) r] ++ l, j, size, by rw [h1]; simp, ?_, ?_⟩
      · refine NoNew.append ?_ h2
        intro e he a; simp at he; subst he; simp
      · rw [dataOf_append, h3]; rfl
    rcases H.fileComplete i (cs.getD i 0) w.1 with ⟨(e | (_ | g)), w'⟩
    · intro h; simp at h
    · exact step _ w'
    · by_cases ht : H.truthy g w' = true
      · simp only [ht, if_true]
        intro h
        simp only [Except.ok.injEq, Option.some.injEq] at h
        subst h
        exact ⟨[], i, cs.getD i 0, by simp, by intro e he; simp at he, rfl⟩
      · simp only [ht, if_false, Bool.false_eq_true]
        exact step _ w'

theorem FileRun.log {fuel64 : Nat} {b64 : Bool} {content : Bytes} {cs cs' : List Nat}
    {w w' : σ × List (Ev F)} {r : Except Exc Unit}
    (h : FileRun (traced H) fuel64 b64 content cs w r cs' w') :
    ∃ l, w'.2 = w.2 ++ l ∧ NoNew l ∧ (r = .ok () → b64 = false → 0 < H.count → dataOf l = content) := by
  have chunk : ∀ (d : Bytes) cs (w : σ × List (Ev F)) r cs1 w1,
      feedChunk (traced H) (List.range H.count) d cs w = (r, cs1, w1) →
      ∃ l, w1.2 = w.2 ++ l ∧ NoNew l ∧ (0 < H.count → dataOf l = d) := by
    intro d cs w r cs1 w1 h
    obtain ⟨l, h1, h2, h3⟩ := feedChunk_log (H := H) (List.range H.count) d cs w
    rw [h] at h1
    refine ⟨l, h1, ?_, ?_⟩
    · intro e he a
      obtain ⟨i, _, d, n, rfl⟩ := h2 e he
      simp
    · intro hc
      obtain ⟨k, hk⟩ : ∃ k, H.count = k + 1 := ⟨H.count - 1, by omega⟩
      obtain ⟨n, l', rfl, h4⟩ := h3 0 (by rw [hk]; simp [List.range_succ_eq_map])
      have : dataOf l' = [] := by
        clear h1 h2 h3
        induction l' with
        | nil => rfl
        | cons e l' ih =>
          obtain ⟨j, hj, d, n, rfl⟩ := h4 e (by simp)
          rw [hk] at hj
          simp [List.range_succ_eq_map] at hj
          obtain ⟨j', _, rfl⟩ := hj
          exact ih (fun e he => h4 e (by simp [he]))
      simp [dataOf, this]
  induction h with
  | stop => exact ⟨[], by simp, by intro e he; simp at he, fun _ _ _ => rfl⟩
  | step h1 h2 h3 h4 ih =>
    obtain ⟨l1, a1, a2, a3⟩ := chunk _ _ _ _ _ _ h3
    obtain ⟨l2, b1, b2, b3⟩ := ih
    refine ⟨l1 ++ l2, by rw [b1, a1, List.append_assoc], a2.append b2, ?_⟩
    intro hr hb hc
    rw [dataOf_append, a3 hc, b3 hr hb hc, h1 hb]
  | fail h1 h2 h3 =>
    obtain ⟨l1, a1, a2, a3⟩ := chunk _ _ _ _ _ _ h3
    exact ⟨l1, a1, a2, by simp⟩
  | badBase64 => exact ⟨[], by simp, by intro e he; simp at he, by simp⟩
  | spin => exact ⟨[], by simp, by intro e he; simp at he, by simp⟩

/-- A file is announced and handler 0 was given `data` for it; no other file was announced to it
since. -/
def Opened (log : List (Ev F)) (args : NewFileArgs) (data : Bytes) : Prop :=
  ∃ l1 l2, log = l1 ++ .newFile 0 args :: l2 ∧ NoNew l2 ∧ dataOf l2 = data

theorem RecvRun.log {fuel64 : Nat} {args : NewFileArgs} {content : Bytes} {cs : List Nat}
    {w w' : σ × List (Ev F)} {r : Except Exc Unit}
    (h : RecvRun (traced H) fuel64 args content w r cs w') :
    w.2 <+: w'.2 ∧ (r = .ok () → 0 < H.count → ∃ data, Opened w'.2 args data ∧
      (args.transferEncoding ≠ some b!"base64" → data = content)) := by
  cases h with
  | refused h =>
    obtain ⟨l, h1, _⟩ := newFiles_log (H := H) args (List.range H.count) w
    have hc : (traced H).count = H.count := rfl
    rw [hc] at h
    rw [h] at h1
    exact ⟨⟨l, h1.symm⟩, by simp⟩
  | fed h hf =>
    obtain ⟨l, h1, h0, h2⟩ := newFiles_log (H := H) args (List.range H.count) w
    have hc : (traced H).count = H.count := rfl
    rw [hc] at h
    rw [h] at h1
    obtain ⟨l2, b1, b2, b3⟩ := hf.log
    simp only at h1
    refine ⟨⟨l ++ l2, by rw [b1, h1, List.append_assoc]⟩, ?_⟩
    intro hr hc
    obtain ⟨k, hk⟩ : ∃ k, H.count = k + 1 := ⟨H.count - 1, by omega⟩
    obtain ⟨l', rfl, h4⟩ := h2 0 (by rw [hk]; simp [List.range_succ_eq_map])
    have hno : ∀ e ∈ l', ∃ i, e = .newFile (i + 1) args := by
      intro e he
      obtain ⟨j, hj, rfl⟩ := h4 e he
      rw [hk] at hj
      simp [List.range_succ_eq_map] at hj
      obtain ⟨j', _, rfl⟩ := hj
      exact ⟨j', rfl⟩
    refine ⟨dataOf l2, ⟨w.2, l' ++ l2, by rw [b1, h1]; simp, ?_, ?_⟩, fun hte => b3 hr (by simpa using hte) hc⟩
    · refine NoNew.append ?_ b2
      intro e he a
      obtain ⟨i, rfl⟩ := hno e he
      simp
    · rw [dataOf_append]
      have : dataOf l' = [] := by
        clear h1 h4 h2 b1 h0
        induction l' with
        | nil => rfl
        | cons e l' ih =>
          obtain ⟨j, rfl⟩ := hno e (by simp)
          exact ih (fun e he => hno e (by simp [he]))
      rw [this]; rfl

theorem Spec.Completed.mono {log log' : List (Ev F)} {args data f} (h : Completed log args data f)
    (hp : log <+: log') : Completed log' args data f := by
  obtain ⟨l1, l2, l3, i, size, h1, h2, h3⟩ := h
  obtain ⟨t, rfl⟩ := hp
  exact ⟨l1, l2, l3 ++ t, i, size, by rw [h1]; simp, h2, h3⟩

/-- What is known of a file in the result. -/
def FileOk (sep body : Bytes) (log : List (Ev F)) (p : Bytes × F) : Prop :=
  ∃ args data content, args.fieldName = p.1 ∧ Completed log args data p.2 ∧
    Delimited sep body content ∧ (args.transferEncoding ≠ some b!"base64" → data = content)

theorem FileOk.mono {sep body} {log log' : List (Ev F)} {p} (h : FileOk sep body log p)
    (hp : log <+: log') : FileOk sep body log' p := by
  obtain ⟨args, data, content, h1, h2, h3⟩ := h
  exact ⟨args, data, content, h1, h2.mono hp, h3⟩

/-- The invariant of the loop over the parts; `D` is the rest of the body. -/
structure CInv (n : Nat) (sep body D : Bytes) (st : PState (σ × List (Ev F)) F) : Prop where
  files : ∀ p ∈ items st.files, FileOk sep body st.world.2 p
  old : ∀ c name, st.oldField = some (c :: name) → 0 < n → D ≠ [] → ∃ args data content,
    args.fieldName = c :: name ∧ Opened st.world.2 args data ∧ Delimited sep body content ∧
    (args.transferEncoding ≠ some b!"base64" → data = content)

theorem completeOld_cinv {sep body D} {st : PState (σ × List (Ev F)) F} (h : CInv H.count sep body D st)
    (hD : D ≠ []) : (∀ p ∈ items (completeOld (traced H) st).2.files,
      FileOk sep body (completeOld (traced H) st).2.world.2 p) ∧
    ((completeOld (traced H) st).1 = .ok () →
      ∀ c name, (completeOld (traced H) st).2.oldField ≠ some (c :: name)) := by
  obtain ⟨world, post, files, oldField, counters, numBytes, numKeys⟩ := st
  obtain ⟨h1, h2⟩ := h
  unfold completeOld
  cases oldField with
  | none => exact ⟨h1, by simp⟩
  | some n =>
    cases n with
    | nil => exact ⟨h1, by simp⟩
    | cons c n =>
      simp only [handleFileComplete]
      have hc : (traced H).count = H.count := rfl
      rw [hc]
      have hl := completeLoop_log (H := H) counters (List.range H.count) world
      have hg := (completeLoop_keeps (traced_grows (H := H) world.2) counters (List.range H.count) world
        (List.prefix_refl _)).1
      have hz : H.count = 0 → (completeLoop (traced H) counters (List.range H.count) world).1 = .ok none := by
        intro h0; rw [h0]; rfl
      generalize completeLoop (traced H) counters (List.range H.count) world = z at *
      rcases z with ⟨(e | (_ | f)), w1⟩
      · exact ⟨fun p hp => (h1 p hp).mono hg, by simp⟩
      · exact ⟨fun p hp => (h1 p hp).mono hg, by simp⟩
      · refine ⟨?_, by simp⟩
        intro p hp
        rcases mem_items_append.1 hp with hp | rfl
        · exact (h1 p hp).mono hg
        · have hpos : 0 < H.count := by
            rcases Nat.eq_zero_or_pos H.count with h0 | h0
            · have := hz h0; simp at this
            · exact h0
          obtain ⟨args, data, content, b1, ⟨l1, l2, b2, b3, b4⟩, b5⟩ := h2 c n rfl hpos hD
          obtain ⟨l, i, size, a1, a2, a3⟩ := hl f rfl
          refine ⟨args, data, content, b1, ⟨l1, l2 ++ l, [], i, size, ?_, b3.append a2, ?_⟩, b5⟩
          · simp only at a1 b2 ⊢
            rw [a1, b2]; simp
          · rw [dataOf_append, a3, b4]; simp

theorem PartHead.file_decomp {C : Codecs} {P : Bytes} {md content}
    (h : PartHead C P .file md content) : ∃ hdr, P = hdr ++ b!"\r\n\r\n" ++ content := by
  generalize ht : ItemType.file = t at h
  cases h with
  | noHeader => simp at ht
  | rawHeader => simp at ht
  | @header i _ _ hf hp _ =>
    have h1 := Py.find_decomp hf
    have hb := Py.find_bound hf
    refine ⟨P.take i, ?_⟩
    have hlen : b!"\r\n\r\n".length = 4 := rfl
    rw [hlen] at h1 hb
    rw [List.length_take] at hb
    conv_lhs => rw [← List.take_append_drop 1024 P, h1]
    rw [List.take_take, Nat.min_eq_left (by omega), List.append_assoc, List.append_assoc, List.append_assoc]
    congr 2
    rw [List.drop_take]
    conv_rhs => rw [← List.take_append_drop (1024 - (i + 4)) (P.drop (i + 4))]
    rw [List.drop_drop]
    congr 2
    omega

theorem delimited_of_part {C : Codecs} {sep body D : Bytes} {md content}
    (hs : D <:+ body) (h : PartHead C (cut sep D) .file md content) (ha : after sep D ≠ []) :
    Delimited sep body content := by
  obtain ⟨hdr, hP⟩ := h.file_decomp
  obtain ⟨pre0, hpre⟩ := hs
  rcases cut_after_Cut sep D with ⟨pre, h1, h2, h3⟩ | ⟨_, _, h⟩
  · have heol : ∃ eol, pre = stripEol pre ++ eol ∧
        (eol = [] ∨ eol = b!"\r\n" ∨ eol = b!"\n" ∨ eol = b!"\r") := by
      have hr : ∀ a b : Bytes, pre.reverse = a ++ b → pre = b.reverse ++ a.reverse := by
        intro a b h
        rw [← List.reverse_append, ← h, List.reverse_reverse]
      unfold stripEol
      split
      · rename_i t h; exact ⟨b!"\r\n", hr [10, 13] _ h, by simp⟩
      · rename_i t _ h; exact ⟨b!"\n", hr [10] _ h, by simp⟩
      · rename_i t h; exact ⟨b!"\r", hr [13] _ h, by simp⟩
      · exact ⟨[], by simp, by simp⟩
    obtain ⟨eol, he, heol⟩ := heol
    refine ⟨pre0, hdr, eol, after sep D, ?_, heol, ha, ?_⟩
    · rw [← hpre]
      conv_lhs => rw [h1, he, ← h3, hP]
      simp
    · rintro ⟨x, y, hxy⟩
      rw [h3] at hP
      have hpe : pre = hdr ++ b!"\r\n\r\n" ++ (x ++ sep ++ y) ++ eol := by rw [hxy, ← hP]; exact he
      have := h2 (hdr ++ b!"\r\n\r\n" ++ x) (y ++ eol ++ sep ++ after sep D) (by
        conv_lhs => rw [h1, hpe]
        simp)
      rw [hpe] at this
      simp only [List.length_append] at this
      have h0 : sep = [] := List.length_eq_zero_iff.1 (by omega)
      subst h0
      -- an empty separator is found at once
      have := h2 [] D (by simp)
      rw [hpe] at this
      simp at this
  · exact absurd h ha

theorem PartRun.cinv {C : Codecs} {S : Settings} {fuel64 : Nat} {t md content} {sep body D : Bytes}
    {st st' : PState (σ × List (Ev F)) F} {b : Bool} {r}
    (h : PartRun C S (traced H) fuel64 t md content st b r st') (hi : CInv H.count sep body D st)
    (hD : D ≠ []) (hs : D <:+ body) (hP : PartHead C (cut sep D) t md content) :
    (∀ p ∈ items st'.files, FileOk sep body st'.world.2 p) ∧
    (r = .ok () → ∀ D', (b = true → D' = after sep D) → CInv H.count sep body D' st') := by
  have hc := completeOld_cinv hi hD
  have same : ∀ st1 st2 : PState (σ × List (Ev F)) F, completeOld (traced H) st = (.ok (), st1) →
      st1.world.2 <+: st2.world.2 → st2.files = st1.files → st2.oldField = st1.oldField →
      (∀ p ∈ items st2.files, FileOk sep body st2.world.2 p) ∧ ∀ D', CInv H.count sep body D' st2 := by
    intro st1 st2 h1 h2 h3 h4
    rw [h1] at hc
    have hf : ∀ p ∈ items st2.files, FileOk sep body st2.world.2 p := by
      rw [h3]; exact fun p hp => (hc.1 p hp).mono h2
    refine ⟨hf, fun D' => ⟨hf, ?_⟩⟩
    intro c n hn
    rw [h4] at hn
    exact absurd hn (hc.2 rfl c n)
  cases h with
  | completeErr h1 => rw [h1] at hc; exact ⟨hc.1, by simp⟩
  | skip h1 =>
    have := same _ st' h1 (List.prefix_refl _) rfl rfl
    exact ⟨this.1, fun _ D' _ => this.2 D'⟩
  | nameErr h1 =>
    have := same _ st' h1 (List.prefix_refl _) rfl rfl
    exact ⟨this.1, fun _ D' _ => this.2 D'⟩
  | tooMany h1 =>
    rename_i st1 _ _ _ _ _ _ _
    have := same _ { st1 with numKeys := st1.numKeys + 1 } h1 (List.prefix_refl _) rfl rfl
    exact ⟨this.1, fun _ D' _ => this.2 D'⟩
  | negative h1 =>
    rename_i st1 _ _ _ _ _ _ _ _
    have := same _ { st1 with numKeys := st1.numKeys + 1 } h1 (List.prefix_refl _) rfl rfl
    exact ⟨this.1, fun _ D' _ => this.2 D'⟩
  | @field st1 d n name raw _ _ h1 _ _ _ _ _ _ h8 _ =>
    have e1 := storeField_world C S name (transferEnc md) md raw { st1 with numKeys := st1.numKeys + 1 }
    have e2 := storeField_oldField C S name (transferEnc md) md raw { st1 with numKeys := st1.numKeys + 1 }
    rw [h8] at e1 e2
    have := same _ st' h1 (by rw [e1.1]) e1.2 e2
    exact ⟨this.1, fun _ D' _ => this.2 D'⟩
  | fileNameErr h1 =>
    have := same _ st' h1 (List.prefix_refl _) rfl rfl
    exact ⟨this.1, fun _ D' _ => this.2 D'⟩
  | noFileName h1 =>
    have := same _ st' h1 (List.prefix_refl _) rfl rfl
    exact ⟨this.1, fun _ D' _ => this.2 D'⟩
  | @file st1 d n name fn cs w h1 h2 h3 h4 h5 h6 h7 =>
    obtain ⟨g1, g2⟩ := h7.log
    rw [h1] at hc
    have hf : ∀ p ∈ items st1.files, FileOk sep body w.2 p := fun p hp => (hc.1 p hp).mono g1
    refine ⟨hf, fun _ D' hD' => ⟨hf, ?_⟩⟩
    intro c nm hn hpos hne
    obtain ⟨data, g3, g4⟩ := g2 rfl hpos
    simp only [Option.some.injEq] at hn
    subst h4
    exact ⟨_, data, content, hn, g3, delimited_of_part hs hP (by rw [← hD' rfl]; exact hne), g4⟩
  | @fileSkip st1 d n name fn cs w _ w' h1 h2 h3 h4 h5 h6 h7 h8 =>
    have hg := closeFiles_keeps (traced_grows (H := H) w.2) (List.range H.count) w (List.prefix_refl _)
    have hcnt : (traced H).count = H.count := rfl
    rw [hcnt] at h8
    rw [h8] at hg
    have := same _ { st1 with world := w', counters := cs } h1 (h7.log.1.trans hg) rfl rfl
    exact ⟨this.1, fun _ D' _ => this.2 D'⟩
  | @fileErr st1 d n name fn e cs w h1 h2 h3 h4 h5 h6 h7 h8 =>
    have := same _ { st1 with world := w, counters := cs } h1 h7.log.1 rfl rfl
    exact ⟨this.1, by simp⟩

theorem Parses.cinv {C : Codecs} {S : Settings} {fuel64 : Nat} {sep body D D' : Bytes}
    {st st' : PState (σ × List (Ev F)) F} {r}
    (h : Parses C S (traced H) fuel64 sep D st r D' st') (hs : D <:+ body)
    (hi : CInv H.count sep body D st) : ∀ p ∈ items st'.files, FileOk sep body st'.world.2 p := by
  induction h with
  | done => exact hi.files
  | headErr => exact hi.files
  | partErr h1 h2 h3 h4 => exact (h3.cinv hi h1 hs h2).1
  | part h1 h2 h3 h4 h5 h6 h7 ih =>
    exact ih (h4.trans hs) ((h3.cinv hi h1 hs h2).2 rfl _ (fun hb => h6 (.inl hb)))

end
end Verif
