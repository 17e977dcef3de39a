import Verif.Proofs.Weigh
/-! Following what is kept of a body back to the part it comes from. -/

namespace Verif
open Spec

namespace Spec

/-- `data` is what the pieces of base64 of which `content` consists decode to, one after the other. -/
inductive Base64Pieces : Bytes → Bytes → Prop where
  | nil : Base64Pieces [] []
  | cons {raw d rest data} : (Py.removeSpaces raw).length % 4 = 0 → Py.b64decode (Py.removeSpaces raw) = some d →
      Base64Pieces rest data → Base64Pieces (raw ++ rest) (d ++ data)

/-- What is kept of a file whose part has this content. -/
def FileBytes (te : Option Bytes) (content data : Bytes) : Prop :=
  if te = some b!"base64" then Base64Pieces content data else data = content

/-- What the header of a part of type and meta-data `md` says about a file. -/
structure Describes (md : MetaData) (name fileName : Bytes) (a : NewFileArgs) : Prop where
  fieldName : a.fieldName = name
  fileName : a.fileName = fileName
  contentType : a.contentType = Py.ustrip ((md.get? b!"content-type").getD ([], [])).1
  extra : a.extra = ((md.get? b!"content-type").getD ([], [])).2
  charset : a.charset = a.extra.get? b!"charset"
  transferEncoding : a.transferEncoding = transferEnc md
  contentLength : a.contentLength = (md.get? b!"content-length").bind (fun v => parseIntU v.1)

/-- A part of the body is a file of the field `name`, with the description `a` and the content `data`. -/
def FilePart (C : Codecs) (sep body : Bytes) (name : Bytes) (a : NewFileArgs) (data : Bytes) : Prop :=
  ∃ D md content d n fileName, D <:+ body ∧ PartHead C (cut sep D) .file md content ∧ partName md = some (d, n) ∧
    forceText n.strip = .ok name ∧ dispositionFileName d = .ok fileName ∧ fileName ≠ [] ∧
    Describes md name fileName a ∧ FileBytes (transferEnc md) content data

/-- A part of the body is a field with this name, in the encoding of the dictionary, and this value. -/
def FieldPart (C : Codecs) (S : Settings) (sep body : Bytes) (key : Bytes) (p : PostItem) : Prop :=
  ∃ D md content d n name, D <:+ body ∧ PartHead C (cut sep D) .field md content ∧ partName md = some (d, n) ∧
    forceText n.strip = .ok name ∧ C.strEncode S.defaultCharset name = .ok key ∧
    p.contentType = Py.ustrip ((md.get? b!"content-type").getD ([], [])).1 ∧
    p.extra = ((md.get? b!"content-type").getD ([], [])).2 ∧
    p.transferEncoding = (transferEnc md).getD [] ∧
    if transferEnc md = some b!"base64" then Py.b64decode content = some p.data else p.data = content

end Spec

/-- `Idle w done`: between files, when the files `done` have been collected, each with what it was announced with and
what it has received.  `Busy a d cs w done`: a file announced with `a` has received `d`, and the counters are `cs`. -/
structure HandlerOps.Truthful {ρ σ F : Type} (H : HandlerOps ρ σ F) (Idle : σ → List (NewFileArgs × Bytes × F) → Prop)
    (Busy : NewFileArgs → Bytes → List Nat → σ → List (NewFileArgs × Bytes × F) → Prop) : Prop where
  idle : ∀ a d cs w done, Busy a d cs w done → Idle w done
  newFiles : ∀ a w done, Idle w done → Idle (newFiles H a (List.range H.count) w).2 done ∧
    ((newFiles H a (List.range H.count) w).1 = .ok () →
      Busy a [] (List.replicate H.count 0) (newFiles H a (List.range H.count) w).2 done)
  feed : ∀ a d c cs w done, Busy a d cs w done → Idle (feedChunk H (List.range H.count) c cs w).2.2 done ∧
    ((feedChunk H (List.range H.count) c cs w).1 = .ok () →
      Busy a (d ++ c) (feedChunk H (List.range H.count) c cs w).2.1 (feedChunk H (List.range H.count) c cs w).2.2 done)
  complete : ∀ a d cs w done, Busy a d cs w done → Idle (completeLoop H cs (List.range H.count) w).2 done ∧
    ∀ f, (completeLoop H cs (List.range H.count) w).1 = .ok (some f) →
      Idle (completeLoop H cs (List.range H.count) w).2 ((a, d, f) :: done)
  uploadComplete : ∀ i w done, Idle w done → Idle (H.uploadComplete i w).2 done
  close : ∀ i w done, Idle w done → Idle (H.close i w).2 done

section
variable {ρ σ F : Type} {H : HandlerOps ρ σ F} {Idle : σ → List (NewFileArgs × Bytes × F) → Prop}
  {Busy : NewFileArgs → Bytes → List Nat → σ → List (NewFileArgs × Bytes × F) → Prop}

theorem FileRun.truthful (hk : H.Truthful Idle Busy) {fuel64 : Nat} {b64 : Bool} {content : Bytes} {cs cs' : List Nat}
    {w w' : σ} {r : Except Exc Unit} (h : FileRun H fuel64 b64 content cs w r cs' w') (a : NewFileArgs)
    (done : List (NewFileArgs × Bytes × F)) : ∀ d, Busy a d cs w done →
      Idle w' done ∧ (r = .ok () → ∃ d', (b64 = true → Base64Pieces content d') ∧ (b64 = false → d' = content) ∧
        Busy a (d ++ d') cs' w' done) := by
  induction h with
  | stop => intro d h; exact ⟨hk.idle _ _ _ _ _ h, fun _ => ⟨[], fun _ => .nil, fun _ => rfl, by simpa using h⟩⟩
  | @step raw rest chunk cs w cs1 w1 r cs' w' h1 h2 h3 _ ih =>
    intro d h
    have := (hk.feed a d chunk cs w done h).2
    rw [h3] at this
    obtain ⟨i1, i2⟩ := ih _ (this rfl)
    refine ⟨i1, fun hr => ?_⟩
    obtain ⟨d', e1, e2, e3⟩ := i2 hr
    refine ⟨chunk ++ d', fun hb => .cons (h2 hb).1 (h2 hb).2 (e1 hb), fun hb => by rw [h1 hb, e2 hb], by simpa using e3⟩
  | @fail raw rest chunk cs w e cs1 w1 h1 h2 h3 =>
    intro d h
    have := (hk.feed a d chunk cs w done h).1
    rw [h3] at this
    exact ⟨this, by simp⟩
  | badBase64 => intro d h; exact ⟨hk.idle _ _ _ _ _ h, by simp⟩
  | spin => intro d h; exact ⟨hk.idle _ _ _ _ _ h, by simp⟩

theorem RecvRun.truthful (hk : H.Truthful Idle Busy) {fuel64 : Nat} {a : NewFileArgs} {content : Bytes} {cs : List Nat}
    {w w' : σ} {r : Except Exc Unit} (h : RecvRun H fuel64 a content w r cs w') (done : List (NewFileArgs × Bytes × F))
    (hw : Idle w done) :
    Idle w' done ∧ (r = .ok () → ∃ d, FileBytes a.transferEncoding content d ∧ Busy a d cs w' done) := by
  have hn := hk.newFiles a w done hw
  cases h with
  | refused h1 =>
    rw [h1] at hn
    exact ⟨hn.1, by simp⟩
  | fed h1 h2 =>
    rw [h1] at hn
    obtain ⟨i1, i2⟩ := h2.truthful hk a done [] (hn.2 rfl)
    refine ⟨i1, fun hr => ?_⟩
    obtain ⟨d, e1, e2, e3⟩ := i2 hr
    refine ⟨d, ?_, by simpa using e3⟩
    unfold FileBytes
    split
    · exact e1 (by simpa using ‹_›)
    · exact e2 (by simpa using ‹_›)

theorem closeFiles_truthful (hk : H.Truthful Idle Busy) (done : List (NewFileArgs × Bytes × F)) : ∀ (is : List Nat) (w : σ), Idle w done →
    Idle (closeFiles H is w).2 done := by
  intro is
  induction is with
  | nil => intro w h; exact h
  | cons i is ih =>
    intro w h
    have := hk.close i w done h
    unfold closeFiles
    generalize H.close i w = z at *
    rcases z with ⟨(e | _), w'⟩
    · exact this
    · exact ih w' this

theorem uploadCompleteLoop_truthful (hk : H.Truthful Idle Busy) (done : List (NewFileArgs × Bytes × F)) : ∀ (is : List Nat) (w : σ),
    Idle w done → Idle (uploadCompleteLoop H is w).2 done := by
  intro is
  induction is with
  | nil => intro w h; exact h
  | cons i is ih =>
    intro w h
    have := hk.uploadComplete i w done h
    unfold uploadCompleteLoop
    generalize H.uploadComplete i w = z at *
    rcases z with ⟨(e | b), w'⟩
    · exact this
    · cases b
      · exact ih w' this
      · exact this

/-- Everything that has been collected comes from a part: fields satisfy `QP`, files `FP`. -/
def PState.Sound (Idle : σ → List (NewFileArgs × Bytes × F) → Prop)
    (Busy : NewFileArgs → Bytes → List Nat → σ → List (NewFileArgs × Bytes × F) → Prop)
    (FP : Bytes → NewFileArgs → Bytes → Prop) (QP : Bytes → PostItem → Prop) (st : PState σ F) : Prop :=
  ∃ done, Idle st.world done ∧ (∀ p ∈ items st.files, ∃ a d, (a, d, p.2) ∈ done ∧ FP p.1 a d) ∧
    (∀ p ∈ items st.post, QP p.1 p.2) ∧
    ∀ c m, st.oldField = some (c :: m) → ∃ a d, FP (c :: m) a d ∧ Busy a d st.counters st.world done

variable {FP : Bytes → NewFileArgs → Bytes → Prop} {QP : Bytes → PostItem → Prop}

theorem completeOld_sound (hk : H.Truthful Idle Busy) (st : PState σ F) (h : st.Sound Idle Busy FP QP) :
    (completeOld H st).2.Sound Idle (fun _ _ _ _ _ => True) FP QP ∧
    ((completeOld H st).1 = .ok () → ∀ c n, (completeOld H st).2.oldField ≠ some (c :: n)) := by
  obtain ⟨world, post, files, oldField, counters, numBytes, numKeys⟩ := st
  obtain ⟨done, h1, h2, h3, h4⟩ := h
  have h5 : ∀ c m, oldField = some (c :: m) → ∃ a d, FP (c :: m) a d ∧ True := fun c m hm => by
    obtain ⟨a, d, h, _⟩ := h4 c m hm
    exact ⟨a, d, h, trivial⟩
  unfold completeOld
  cases oldField with
  | none => exact ⟨⟨done, h1, h2, h3, h5⟩, by simp⟩
  | some m =>
    cases m with
    | nil => exact ⟨⟨done, h1, h2, h3, h5⟩, by simp⟩
    | cons c m =>
      obtain ⟨a, d, h6, h7⟩ := h4 c m rfl
      simp only [handleFileComplete]
      have := hk.complete a d counters world done h7
      simp only at *
      generalize completeLoop H counters (List.range H.count) world = z at *
      rcases z with ⟨(e | (_ | f)), w1⟩
      · exact ⟨⟨done, this.1, h2, h3, h5⟩, by simp⟩
      · exact ⟨⟨done, this.1, h2, h3, by simp⟩, by simp⟩
      · refine ⟨⟨(a, d, f) :: done, this.2 f rfl, ?_, h3, by simp⟩, by simp⟩
        intro p hp
        rcases mem_items_append.1 hp with hp | rfl
        · obtain ⟨a', d', e1, e2⟩ := h2 p hp
          exact ⟨a', d', by simp [e1], e2⟩
        · exact ⟨a, d, by simp, h6⟩

/-- A part keeps that, if it is one of the parts. -/
theorem PartRun.sound (hk : H.Truthful Idle Busy) {C : Codecs} {S : Settings} {fuel64 : Nat} {t md content}
    {st st' : PState σ F} {b : Bool} {r : Except Exc Unit} (h : PartRun C S H fuel64 t md content st b r st')
    (hF : ∀ d n name fn data a, t = .file → partName md = some (d, n) → forceText n.strip = .ok name →
      dispositionFileName d = .ok fn → fn ≠ [] → Describes md name fn a → FileBytes (transferEnc md) content data → FP name a data)
    (hQ : ∀ d n name key p, t = .field → partName md = some (d, n) → forceText n.strip = .ok name →
      C.strEncode S.defaultCharset name = .ok key →
      p.contentType = Py.ustrip ((md.get? b!"content-type").getD ([], [])).1 →
      p.extra = ((md.get? b!"content-type").getD ([], [])).2 → p.transferEncoding = (transferEnc md).getD [] →
      (if transferEnc md = some b!"base64" then Py.b64decode content = some p.data else p.data = content) → QP key p)
    (hst : st.Sound Idle Busy FP QP) :
    st'.Sound Idle (fun _ _ _ _ _ => True) FP QP ∧ (r = .ok () → st'.Sound Idle Busy FP QP) := by
  obtain ⟨hc, ho⟩ := completeOld_sound hk st hst
  have same : ∀ st1 st2 : PState σ F, completeOld H st = (.ok (), st1) → st2.world = st1.world → st2.files = st1.files →
      st2.post = st1.post → st2.oldField = st1.oldField →
      st2.Sound Idle (fun _ _ _ _ _ => True) FP QP ∧ st2.Sound Idle Busy FP QP := by
    intro st1 st2 h1 e1 e2 e3 e4
    rw [h1] at hc ho
    obtain ⟨done, h2, h3, h4, _⟩ := hc
    have no : ∀ c m, st2.oldField ≠ some (c :: m) := by rw [e4]; exact ho rfl
    exact ⟨⟨done, by rw [e1]; exact h2, by rw [e2]; exact h3, by rw [e3]; exact h4, fun c m hm => absurd hm (no c m)⟩,
      ⟨done, by rw [e1]; exact h2, by rw [e2]; exact h3, by rw [e3]; exact h4, fun c m hm => absurd hm (no c m)⟩⟩
  have args : ∀ name fn, Describes md name fn (fileArgs name fn (transferEnc md) md) := fun name fn =>
    ⟨rfl, rfl, rfl, rfl, rfl, rfl, rfl⟩
  cases h with
  | completeErr h1 =>
    rw [h1] at hc
    exact ⟨hc, by simp⟩
  | skip h1 =>
    obtain ⟨s1, s2⟩ := same _ st' h1 rfl rfl rfl rfl
    exact ⟨s1, fun _ => s2⟩
  | nameErr h1 =>
    obtain ⟨s1, s2⟩ := same _ st' h1 rfl rfl rfl rfl
    exact ⟨s1, fun _ => s2⟩
  | @tooMany st1 _ _ _ h1 =>
    obtain ⟨s1, s2⟩ := same _ { st1 with numKeys := st1.numKeys + 1 } h1 rfl rfl rfl rfl
    exact ⟨s1, fun _ => s2⟩
  | @negative st1 _ _ _ h1 =>
    obtain ⟨s1, s2⟩ := same _ { st1 with numKeys := st1.numKeys + 1 } h1 rfl rfl rfl rfl
    exact ⟨s1, fun _ => s2⟩
  | @field st1 d n name raw _ _ h1 h2 h3 h4 _ _ h7 h8 h9 =>
    have e1 := storeField_world C S name (transferEnc md) md raw { st1 with numKeys := st1.numKeys + 1 }
    have e2 := storeField_oldField C S name (transferEnc md) md raw { st1 with numKeys := st1.numKeys + 1 }
    rw [h1] at hc ho
    obtain ⟨done, i1, i2, i3, _⟩ := hc
    have hp : ∀ p ∈ items st'.post, QP p.1 p.2 := by
      unfold storeField at h8
      simp only at h8
      split at h8
      · cases h8; exact i3
      · rename_i data hd
        split at h8
        · cases h8; exact i3
        · split at h8
          · cases h8; exact i3
          · rename_i post hpost
            cases h8
            rw [h9 rfl] at hd
            intro p hp
            obtain ⟨key, hkey, hap⟩ := postAppend_ok hpost
            rcases hap with rfl | ⟨_, k', _, _, rfl⟩
            swap
            · exact i3 p (mem_items_clear k' _ p hp)
            rcases mem_items_append.1 hp with hp | rfl
            · exact i3 p hp
            · refine hQ d n name key _ h4 h2 h3 hkey rfl rfl rfl ?_
              simp only
              split at hd
              · rw [if_pos ‹_›]; exact hd
              · rw [if_neg ‹_›]
                simp only [Option.some.injEq] at hd
                exact hd.symm
    rw [h8] at e1 e2
    simp only at e1 e2
    have no : ∀ c m, st'.oldField ≠ some (c :: m) := by rw [e2]; exact ho rfl
    exact ⟨⟨done, by rw [e1.1]; exact i1, by rw [e1.2]; exact i2, hp, fun c m hm => absurd hm (no c m)⟩,
      fun _ => ⟨done, by rw [e1.1]; exact i1, by rw [e1.2]; exact i2, hp, fun c m hm => absurd hm (no c m)⟩⟩
  | fileNameErr h1 =>
    obtain ⟨s1, s2⟩ := same _ st' h1 rfl rfl rfl rfl
    exact ⟨s1, fun _ => s2⟩
  | noFileName h1 =>
    obtain ⟨s1, s2⟩ := same _ st' h1 rfl rfl rfl rfl
    exact ⟨s1, fun _ => s2⟩
  | @file st1 d n name fn cs w h1 h2 h3 h4 h5 h6 h7 =>
    rw [h1] at hc
    obtain ⟨done, i1, i2, i3, _⟩ := hc
    obtain ⟨g1, g2⟩ := h7.truthful hk done i1
    obtain ⟨data, k1, k2⟩ := g2 rfl
    have fp := hF d n name fn data _ h4 h2 h3 h5 h6 (args name fn) k1
    refine ⟨⟨done, g1, i2, i3, ?_⟩, fun _ => ⟨done, g1, i2, i3, ?_⟩⟩
    · intro c m hm
      simp only [Option.some.injEq] at hm
      subst hm
      exact ⟨_, data, fp, trivial⟩
    · intro c m hm
      simp only [Option.some.injEq] at hm
      subst hm
      exact ⟨_, data, fp, k2⟩
  | @fileSkip st1 d n name fn cs w _ w' h1 _ _ h4 _ _ h7 h8 =>
    rw [h1] at hc ho
    obtain ⟨done, i1, i2, i3, _⟩ := hc
    obtain ⟨g1, g2⟩ := h7.truthful hk done i1
    have g3 := closeFiles_truthful hk done (List.range H.count) w g1
    rw [h8] at g3
    exact ⟨⟨done, g3, i2, i3, fun c m hm => absurd hm (ho rfl c m)⟩,
      fun _ => ⟨done, g3, i2, i3, fun c m hm => absurd hm (ho rfl c m)⟩⟩
  | @fileErr st1 d n name fn e cs w h1 _ _ h4 _ _ h7 h8 =>
    rw [h1] at hc ho
    obtain ⟨done, i1, i2, i3, _⟩ := hc
    obtain ⟨g1, g2⟩ := h7.truthful hk done i1
    exact ⟨⟨done, g1, i2, i3, fun c m hm => absurd hm (ho rfl c m)⟩, by simp⟩

theorem Parses.sound (hk : H.Truthful Idle Busy) {C : Codecs} {S : Settings} {fuel64 : Nat} {sep body D D' : Bytes}
    {st st' : PState σ F} {r : Except Exc Unit} (h : Parses C S H fuel64 sep D st r D' st') (hs : D <:+ body)
    (h0 : st.Sound Idle Busy (FilePart C sep body) (FieldPart C S sep body)) :
    st'.Sound Idle (fun _ _ _ _ _ => True) (FilePart C sep body) (FieldPart C S sep body) := by
  have weaken : ∀ st : PState σ F, st.Sound Idle Busy (FilePart C sep body) (FieldPart C S sep body) →
      st.Sound Idle (fun _ _ _ _ _ => True) (FilePart C sep body) (FieldPart C S sep body) := by
    rintro st ⟨done, h1, h2, h3, h4⟩
    refine ⟨done, h1, h2, h3, fun c m hm => ?_⟩
    obtain ⟨a, d, h, _⟩ := h4 c m hm
    exact ⟨a, d, h, trivial⟩
  induction h with
  | done => exact weaken _ h0
  | headErr => exact weaken _ h0
  | @partErr D D' st t md content b e st' h1 h2 h3 h4 =>
    refine (h3.sound hk ?_ ?_ h0).1
    · rintro d n name fn data a rfl p1 p2 p3 p4 p5 p6
      exact ⟨D, md, content, d, n, fn, hs, h2, p1, p2, p3, p4, p5, p6⟩
    · rintro d n name key p rfl p1 p2 p3 p4 p5 p6 p7
      exact ⟨D, md, content, d, n, name, hs, h2, p1, p2, p3, p4, p5, p6, p7⟩
  | @part D D' D'' st t md content b st' r st'' h1 h2 h3 h4 h5 h6 _ ih =>
    refine ih (h4.trans hs) ((h3.sound hk ?_ ?_ h0).2 rfl)
    · rintro d n name fn data a rfl p1 p2 p3 p4 p5 p6
      exact ⟨D, md, content, d, n, fn, hs, h2, p1, p2, p3, p4, p5, p6⟩
    · rintro d n name key p rfl p1 p2 p3 p4 p5 p6 p7
      exact ⟨D, md, content, d, n, name, hs, h2, p1, p2, p3, p4, p5, p6, p7⟩

end

section
variable {ρ σ F : Type} [Producer ρ] {L : Lawful ρ} {H : HandlerOps ρ σ F} {Idle : σ → List (NewFileArgs × Bytes × F) → Prop}
  {Busy : NewFileArgs → Bytes → List Nat → σ → List (NewFileArgs × Bytes × F) → Prop}

/-- Every field and every file of a parsed form comes from a part of the body. -/
theorem parse_sound (hk : H.Truthful Idle Busy) (C : Codecs) (S : Settings) (fuel64 : Nat) (m : MultiPart) (hc : 1 ≤ m.chunkSize)
    (hl : LeavesParsing L H) (input : LazyStream ρ) (w : σ) (hi : SOK L input) (h0 : Idle w [])
    (hw : ∀ a input input1 w1, rawInputLoop H a (List.range H.count) input w = (.ok none, input1, w1) → Idle w1 [])
    {post files s' w'} (h : m.parse C S H fuel64 input w = (.ok (post, files), s', w')) :
    ∃ done, Idle w' done ∧
      (∀ p ∈ items files, ∃ a d, (a, d, p.2) ∈ done ∧ FilePart C (b!"--" ++ m.boundary) (L.sc input) p.1 a d) ∧
      ∀ p ∈ items post, FieldPart C S (b!"--" ++ m.boundary) (L.sc input) p.1 p.2 := by
  rcases parse_elim C S H fuel64 m hc hl input w hi with
    ⟨e, _, _, h1, _⟩ | ⟨_, _, h1⟩ | ⟨_, _, input1, w1, r, D', st', s2, R, w2, h2, _, hsuf, h3, h4, h5, _⟩
  · rw [h] at h1; simp at h1
  · rw [h] at h1
    simp only [Prod.mk.injEq, Except.ok.injEq] at h1
    obtain ⟨⟨rfl, rfl⟩, _, rfl⟩ := h1
    exact ⟨[], h0, by simp [items], by simp [items]⟩
  · rw [h] at h3
    simp only [Prod.mk.injEq] at h3
    obtain ⟨rfl, _, rfl⟩ := h3
    obtain ⟨done, k1, k2, k3, _⟩ := h4.sound hk hsuf ⟨[], hw _ _ _ _ h2, by simp [PState.start, items],
      by simp [PState.start, items], by simp [PState.start]⟩
    have fin : ∀ w0, Idle w0 done → ∀ w3,
        (match uploadCompleteLoop H (List.range H.count) w0 with
          | (.error e, w) => (.error e, w)
          | (.ok (), w) => (.ok (st'.post, st'.files), w) : Except Exc (MVD PostItem × MVD F) × σ) = (.ok (post, files), w3) →
        Idle w3 done ∧ st'.post = post ∧ st'.files = files := by
      intro w0 hw0 w3 he
      have hu := uploadCompleteLoop_truthful hk done (List.range H.count) w0 hw0
      rcases hz : uploadCompleteLoop H (List.range H.count) w0 with ⟨(e | _), w4⟩
      · rw [hz] at he; simp at he
      · rw [hz] at he hu
        simp only [Prod.mk.injEq, Except.ok.injEq] at he
        obtain ⟨⟨rfl, rfl⟩, rfl⟩ := he
        exact ⟨hu, rfl, rfl⟩
    have : Idle w' done ∧ st'.post = post ∧ st'.files = files := by
      unfold endParse at h5
      split at h5
      · exact fin _ k1 _ h5
      · have hcl := closeFiles_truthful hk done (List.range H.count) _ k1
        rcases hz : closeFiles H (List.range H.count) st'.world with ⟨(e | _), w4⟩
        · rw [hz] at h5; simp at h5
        · rw [hz] at h5 hcl
          exact fin _ hcl _ h5
      · simp at h5
    obtain ⟨q1, rfl, rfl⟩ := this
    exact ⟨done, q1, k2, k3⟩

end
end Verif
