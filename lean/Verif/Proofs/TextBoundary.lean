import Verif.Proofs.Arrival
/-!
Parsing with a separator that is a `unicode` object, compared with parsing with the same separator as bytes: the
second program either raises `UnicodeDecodeError` (which can happen only if `Fail` holds) or does the same.
-/

namespace Verif

/-- Related producers have the same size and answer alike, or the second one fails. -/
structure UpTo {τ τ' : Type} [Producer τ] [Producer τ'] (Fail : Prop) (R : τ → τ' → Prop) : Prop where
  next : ∀ p q, R p q → (Fail ∧ ∃ q', Producer.next q = (.error .unicodeDecodeError, q')) ∨
    ∃ r p' q', Producer.next p = (r, p') ∧ Producer.next q = (r, q') ∧ R p' q'
  size : ∀ p q, R p q → Producer.size p = Producer.size q

/-- Streams over related producers that agree in everything else. -/
structure LX {τ τ' : Type} (R : τ → τ' → Prop) (s : LazyStream τ) (t : LazyStream τ') : Prop where
  prod : R s.producer t.producer
  left : s.leftover = t.leftover
  len : s.length = t.length
  pos : s.position = t.position
  hist : s.history = t.history

section
variable {τ τ' : Type} [Producer τ] [Producer τ'] {Fail : Prop} {R : τ → τ' → Prop}

theorem LX.size (hR : UpTo Fail R) {s : LazyStream τ} {t : LazyStream τ'} (h : LX R s t) : s.size = t.size := by
  simp only [LazyStream.size, hR.size _ _ h.prod, h.left]

theorem LX.next (hR : UpTo Fail R) {s : LazyStream τ} {t : LazyStream τ'} (h : LX R s t) :
    (Fail ∧ ∃ t', t.next = (.error .unicodeDecodeError, t')) ∨
    ∃ r s' t', s.next = (r, s') ∧ t.next = (r, t') ∧ LX R s' t' := by
  obtain ⟨sp, sl, sn, spos, sh⟩ := s
  obtain ⟨tp, tl, tn, tpos, th⟩ := t
  obtain ⟨hp, rfl, rfl, rfl, rfl⟩ := h
  simp only at hp
  unfold LazyStream.next
  simp only
  by_cases hl : sl = []
  · subst hl
    rw [if_neg (by simp), if_neg (by simp)]
    rcases hR.next _ _ hp with ⟨hF, q', e2⟩ | ⟨r, p', q', e1, e2, a1⟩
    · rw [e2]; exact .inl ⟨hF, _, rfl⟩
    rw [e1, e2]
    match r with
    | .error e => exact .inr ⟨_, _, _, rfl, rfl, ⟨a1, rfl, rfl, rfl, rfl⟩⟩
    | .ok none => exact .inr ⟨_, _, _, rfl, rfl, ⟨a1, rfl, rfl, rfl, rfl⟩⟩
    | .ok (some c) => exact .inr ⟨_, _, _, rfl, rfl, ⟨a1, rfl, rfl, rfl, rfl⟩⟩
  · rw [if_pos hl, if_pos hl]
    exact .inr ⟨_, _, _, rfl, rfl, ⟨hp, rfl, rfl, rfl, rfl⟩⟩

omit [Producer τ] [Producer τ'] in
theorem LX.unget {s : LazyStream τ} {t : LazyStream τ'} (h : LX R s t) (b : Bytes) :
    ∃ r s' t', s.unget b = (r, s') ∧ t.unget b = (r, t') ∧ LX R s' t' := by
  obtain ⟨sp, sl, sn, spos, sh⟩ := s
  obtain ⟨tp, tl, tn, tpos, th⟩ := t
  obtain ⟨hp, rfl, rfl, rfl, rfl⟩ := h
  simp only at hp
  unfold LazyStream.unget
  simp only
  split
  · exact ⟨_, _, _, rfl, rfl, ⟨hp, rfl, rfl, rfl, rfl⟩⟩
  split
  · exact ⟨_, _, _, rfl, rfl, ⟨hp, rfl, rfl, rfl, rfl⟩⟩
  · exact ⟨_, _, _, rfl, rfl, ⟨hp, rfl, rfl, rfl, rfl⟩⟩

theorem LX.readLoop (hR : UpTo Fail R) : ∀ (f rem : Nat) (acc : Bytes) {s : LazyStream τ} {t : LazyStream τ'}, LX R s t →
    (Fail ∧ ∃ t', LazyStream.readLoop f rem acc t = (.error .unicodeDecodeError, t')) ∨
    ∃ r s' t', LazyStream.readLoop f rem acc s = (r, s') ∧ LazyStream.readLoop f rem acc t = (r, t') ∧ LX R s' t' := by
  intro f
  induction f with
  | zero =>
    intro rem acc s t h
    unfold LazyStream.readLoop
    split <;> exact .inr ⟨_, _, _, rfl, rfl, h⟩
  | succ f ih =>
    intro rem acc s t h
    unfold LazyStream.readLoop
    split
    · exact .inr ⟨_, _, _, rfl, rfl, h⟩
    rcases h.next hR with ⟨hF, t1, e2⟩ | ⟨r, s1, t1, e1, e2, a1⟩
    · rw [e2]; exact .inl ⟨hF, _, rfl⟩
    rw [e1, e2]
    match r with
    | .error e => exact .inr ⟨_, _, _, rfl, rfl, a1⟩
    | .ok none => exact .inr ⟨_, _, _, rfl, rfl, a1⟩
    | .ok (some c) =>
      simp only
      obtain ⟨r, s2, t2, e1, e2, c1⟩ := a1.unget (c.drop rem)
      rw [e1, e2]
      match r with
      | .error e => exact .inr ⟨_, _, _, rfl, rfl, c1⟩
      | .ok () => exact ih _ _ c1

theorem LX.joinAll (hR : UpTo Fail R) : ∀ (f : Nat) (acc : Bytes) {s : LazyStream τ} {t : LazyStream τ'}, LX R s t →
    (Fail ∧ ∃ t', LazyStream.joinAll f acc t = (.error .unicodeDecodeError, t')) ∨
    ∃ r s' t', LazyStream.joinAll f acc s = (r, s') ∧ LazyStream.joinAll f acc t = (r, t') ∧ LX R s' t' := by
  intro f
  induction f with
  | zero => intro acc s t h; exact .inr ⟨_, _, _, rfl, rfl, h⟩
  | succ f ih =>
    intro acc s t h
    unfold LazyStream.joinAll
    rcases h.next hR with ⟨hF, t1, e2⟩ | ⟨r, s1, t1, e1, e2, a1⟩
    · rw [e2]; exact .inl ⟨hF, _, rfl⟩
    rw [e1, e2]
    match r with
    | .error e => exact .inr ⟨_, _, _, rfl, rfl, a1⟩
    | .ok none => exact .inr ⟨_, _, _, rfl, rfl, a1⟩
    | .ok (some c) => exact ih _ a1

theorem LX.read (hR : UpTo Fail R) {s : LazyStream τ} {t : LazyStream τ'} (h : LX R s t) (n : Option Int) :
    (Fail ∧ ∃ t', t.read n = (.error .unicodeDecodeError, t')) ∨
    ∃ r s' t', s.read n = (r, s') ∧ t.read n = (r, t') ∧ LX R s' t' := by
  unfold LazyStream.read
  rw [← h.len, h.size hR]
  simp only
  split
  · exact h.joinAll hR _ _
  · split
    · exact .inr ⟨_, _, _, rfl, rfl, h⟩
    · exact h.readLoop hR _ _ _

theorem LX.exhaustLoop (hR : UpTo Fail R) : ∀ (f : Nat) {s : LazyStream τ} {t : LazyStream τ'}, LX R s t →
    (Fail ∧ ∃ t', Verif.exhaustLoop f t = (.error .unicodeDecodeError, t')) ∨
    ∃ r s' t', Verif.exhaustLoop f s = (r, s') ∧ Verif.exhaustLoop f t = (r, t') ∧ LX R s' t' := by
  intro f
  induction f with
  | zero => intro s t h; exact .inr ⟨_, _, _, rfl, rfl, h⟩
  | succ f ih =>
    intro s t h
    unfold Verif.exhaustLoop
    rcases h.next hR with ⟨hF, t1, e2⟩ | ⟨r, s1, t1, e1, e2, a1⟩
    · rw [e2]; exact .inl ⟨hF, _, rfl⟩
    rw [e1, e2]
    match r with
    | .error e => exact .inr ⟨_, _, _, rfl, rfl, a1⟩
    | .ok none => exact .inr ⟨_, _, _, rfl, rfl, a1⟩
    | .ok (some c) => exact ih a1

theorem LX.exhaust (hR : UpTo Fail R) {s : LazyStream τ} {t : LazyStream τ'} (h : LX R s t) :
    (Fail ∧ ∃ t', Verif.exhaust t = (.error .unicodeDecodeError, t')) ∨
    ∃ r s' t', Verif.exhaust s = (r, s') ∧ Verif.exhaust t = (r, t') ∧ LX R s' t' := by
  unfold Verif.exhaust
  rw [h.size hR]
  exact h.exhaustLoop hR _

theorem LX.parseBoundaryStream (hR : UpTo Fail R) (C : Codecs) (n : Nat) {s : LazyStream τ} {t : LazyStream τ'}
    (h : LX R s t) :
    (Fail ∧ ∃ t', Verif.parseBoundaryStream C t n = (.error .unicodeDecodeError, t')) ∨
    ∃ r s' t', Verif.parseBoundaryStream C s n = (r, s') ∧ Verif.parseBoundaryStream C t n = (r, t') ∧ LX R s' t' := by
  unfold Verif.parseBoundaryStream
  rcases h.read hR (some n) with ⟨hF, t1, e2⟩ | ⟨r, s1, t1, e1, e2, a1⟩
  · rw [e2]; exact .inl ⟨hF, _, rfl⟩
  rw [e1, e2]
  match r with
  | .error e => exact .inr ⟨_, _, _, rfl, rfl, a1⟩
  | .ok d =>
    simp only
    split
    · obtain ⟨r, s2, t2, e1, e2, c1⟩ := a1.unget d
      rw [e1, e2]
      match r with
      | .error e => exact .inr ⟨_, _, _, rfl, rfl, c1⟩
      | .ok () => exact .inr ⟨_, _, _, rfl, rfl, c1⟩
    · rename_i i _
      obtain ⟨r, s2, t2, e1, e2, c1⟩ := a1.unget (d.drop (i + 4))
      rw [e1, e2]
      match r with
      | .error e => exact .inr ⟨_, _, _, rfl, rfl, c1⟩
      | .ok () =>
        simp only
        split
        · exact .inr ⟨_, _, _, rfl, rfl, c1⟩
        · split
          · obtain ⟨r, s3, t3, e1, e2, d1⟩ := c1.unget d
            rw [e1, e2]
            match r with
            | .error e => exact .inr ⟨_, _, _, rfl, rfl, d1⟩
            | .ok () => exact .inr ⟨_, _, _, rfl, rfl, d1⟩
          · exact .inr ⟨_, _, _, rfl, rfl, c1⟩

theorem LX.fillBase64 (hR : UpTo Fail R) : ∀ (f : Nat) (d : Bytes) {s : LazyStream τ} {t : LazyStream τ'}, LX R s t →
    (Fail ∧ ∃ t', Verif.fillBase64 f d t = (.error .unicodeDecodeError, t')) ∨
    ∃ r s' t', Verif.fillBase64 f d s = (r, s') ∧ Verif.fillBase64 f d t = (r, t') ∧ LX R s' t' := by
  intro f
  induction f with
  | zero =>
    intro d s t h
    unfold Verif.fillBase64
    split <;> exact .inr ⟨_, _, _, rfl, rfl, h⟩
  | succ f ih =>
    intro d s t h
    unfold Verif.fillBase64
    split
    · exact .inr ⟨_, _, _, rfl, rfl, h⟩
    rcases h.read hR (some (4 - d.length % 4 : Nat)) with ⟨hF, t1, e2⟩ | ⟨r, s1, t1, e1, e2, a1⟩
    · rw [e2]; exact .inl ⟨hF, _, rfl⟩
    rw [e1, e2]
    match r with
    | .error e => exact .inr ⟨_, _, _, rfl, rfl, a1⟩
    | .ok over => exact ih _ a1

theorem LX.fileChunk (hR : UpTo Fail R) (f : Nat) (b64 : Bool) (d : Bytes) {s : LazyStream τ} {t : LazyStream τ'}
    (h : LX R s t) :
    (Fail ∧ ∃ t', Verif.fileChunk f b64 d t = (.error .unicodeDecodeError, t')) ∨
    ∃ r s' t', Verif.fileChunk f b64 d s = (r, s') ∧ Verif.fileChunk f b64 d t = (r, t') ∧ LX R s' t' := by
  unfold Verif.fileChunk
  split
  · rcases h.fillBase64 hR f (Py.removeSpaces d) with ⟨hF, t1, e2⟩ | ⟨r, s1, t1, e1, e2, a1⟩
    · rw [e2]; exact .inl ⟨hF, _, rfl⟩
    rw [e1, e2]
    match r with
    | .error e => exact .inr ⟨_, _, _, rfl, rfl, a1⟩
    | .ok x =>
      simp only
      split <;> exact .inr ⟨_, _, _, rfl, rfl, a1⟩
  · exact .inr ⟨_, _, _, rfl, rfl, h⟩

variable {ρ σ F : Type}

theorem LX.fileLoop (hR : UpTo Fail R) (H : HandlerOps ρ σ F) (f64 : Nat) (b64 : Bool) : ∀ (f : Nat) (cs : List Nat) (w : σ)
    {s : LazyStream τ} {t : LazyStream τ'}, LX R s t →
    (Fail ∧ ∃ x, Verif.fileLoop H f64 b64 f t cs w = (.error .unicodeDecodeError, x)) ∨
    ∃ r s' t' y, Verif.fileLoop H f64 b64 f s cs w = (r, s', y) ∧
      Verif.fileLoop H f64 b64 f t cs w = (r, t', y) ∧ LX R s' t' := by
  intro f
  induction f with
  | zero => intro cs w s t h; exact .inr ⟨_, _, _, _, rfl, rfl, h⟩
  | succ f ih =>
    intro cs w s t h
    unfold Verif.fileLoop
    rcases h.next hR with ⟨hF, t1, e2⟩ | ⟨r, s1, t1, e1, e2, a1⟩
    · rw [e2]; exact .inl ⟨hF, _, rfl⟩
    rw [e1, e2]
    match r with
    | .error e => exact .inr ⟨_, _, _, _, rfl, rfl, a1⟩
    | .ok none => exact .inr ⟨_, _, _, _, rfl, rfl, a1⟩
    | .ok (some c) =>
      simp only
      rcases a1.fileChunk hR f64 b64 c with ⟨hF, t1, e2⟩ | ⟨r, s2, t2, e1, e2, c1⟩
      · rw [e2]; exact .inl ⟨hF, _, rfl⟩
      rw [e1, e2]
      match r with
      | .error e => exact .inr ⟨_, _, _, _, rfl, rfl, c1⟩
      | .ok d =>
        simp only
        rcases feedChunk H (List.range H.count) d cs w with ⟨_ | _, cs1, w1⟩
        · exact .inr ⟨_, _, _, _, rfl, rfl, c1⟩
        · exact ih cs1 w1 c1

theorem LX.receiveFile (hR : UpTo Fail R) (H : HandlerOps ρ σ F) (f64 : Nat) (args : NewFileArgs) (w : σ)
    {s : LazyStream τ} {t : LazyStream τ'} (h : LX R s t) :
    (Fail ∧ ∃ x, Verif.receiveFile H f64 args t w = (.error .unicodeDecodeError, x)) ∨
    ∃ r s' t' y, Verif.receiveFile H f64 args s w = (r, s', y) ∧
      Verif.receiveFile H f64 args t w = (r, t', y) ∧ LX R s' t' := by
  unfold Verif.receiveFile
  simp only
  rcases newFiles H args (List.range H.count) w with ⟨_ | _, w1⟩
  · exact .inr ⟨_, _, _, _, rfl, rfl, h⟩
  · simp only [h.size hR]
    exact h.fileLoop hR H f64 _ _ _ _

theorem LX.handleField (hR : UpTo Fail R) (C : Codecs) (S : Settings) (name : Bytes) (te : Option Bytes) (md : MetaData)
    (st : PState σ F) {s : LazyStream τ} {t : LazyStream τ'} (h : LX R s t) :
    (Fail ∧ ∃ x, Verif.handleField C S name te md t st = (.error .unicodeDecodeError, x)) ∨
    ∃ r s' t' st', Verif.handleField C S name te md s st = (r, s', st') ∧
      Verif.handleField C S name te md t st = (r, t', st') ∧ LX R s' t' := by
  unfold Verif.handleField
  simp only
  split
  · exact .inr ⟨_, _, _, _, rfl, rfl, h⟩
  · rcases h.read hR (S.dataMaxMemory.map (· - (st.numBytes : Int))) with ⟨hF, t1, e2⟩ | ⟨r, s1, t1, e1, e2, a1⟩
    · rw [e2]; exact .inl ⟨hF, _, rfl⟩
    rw [e1, e2]
    match r with
    | .error e => exact .inr ⟨_, _, _, _, rfl, rfl, a1⟩
    | .ok raw => exact .inr ⟨_, _, _, _, rfl, rfl, a1⟩

theorem LX.handleFile (hR : UpTo Fail R) (H : HandlerOps ρ σ F) (f64 : Nat) (name : Bytes) (te : Option Bytes)
    (md : MetaData) (disp : Dict Bytes PyStr) (st : PState σ F) {s : LazyStream τ} {t : LazyStream τ'} (h : LX R s t) :
    (Fail ∧ ∃ x, Verif.handleFile H f64 name te md disp t st = (.error .unicodeDecodeError, x)) ∨
    ∃ r s' t' st', Verif.handleFile H f64 name te md disp s st = (r, s', st') ∧
      Verif.handleFile H f64 name te md disp t st = (r, t', st') ∧ LX R s' t' := by
  unfold Verif.handleFile
  cases dispositionFileName disp with
  | error e => exact .inr ⟨_, _, _, _, rfl, rfl, h⟩
  | ok fileName =>
    simp only
    split
    · exact .inr ⟨_, _, _, _, rfl, rfl, h⟩
    rcases h.receiveFile hR H f64 (fileArgs name fileName te md) st.world with
      ⟨hF, ⟨t1, cs, w⟩, e2⟩ | ⟨r, s1, t1, ⟨cs, w⟩, e1, e2, a1⟩
    · rw [e2]; exact .inl ⟨hF, _, rfl⟩
    rw [e1, e2]
    match r with
    | .ok () => exact .inr ⟨_, _, _, _, rfl, rfl, a1⟩
    | .error e =>
      by_cases he : e = .skipFile
      · subst he
        simp only
        rcases closeFiles H (List.range H.count) w with ⟨_ | _, w1⟩
        · exact .inr ⟨_, _, _, _, rfl, rfl, a1⟩
        · simp only
          rcases a1.exhaust hR with ⟨hF, t1, e2⟩ | ⟨r, s2, t2, e1, e2, c1⟩
          · rw [e2]; exact .inl ⟨hF, _, rfl⟩
          rw [e1, e2]
          match r with
          | .ok () => exact .inr ⟨_, _, _, _, rfl, rfl, c1⟩
          | .error e => exact .inr ⟨_, _, _, _, rfl, rfl, c1⟩
      · refine .inr ⟨.error e, s1, t1, { st with world := w, counters := cs }, ?_, ?_, a1⟩ <;>
        · split
          · rename_i h; cases h
          · rename_i h; cases h; contradiction
          · rename_i h; cases h; rfl

theorem LX.handlePart (hR : UpTo Fail R) (C : Codecs) (S : Settings) (H : HandlerOps ρ σ F) (f64 : Nat) (ty : ItemType)
    (md : MetaData) (st : PState σ F) {s : LazyStream τ} {t : LazyStream τ'} (h : LX R s t) :
    (Fail ∧ ∃ x, Verif.handlePart C S H f64 ty md t st = (.error .unicodeDecodeError, x)) ∨
    ∃ r s' t' st', Verif.handlePart C S H f64 ty md s st = (r, s', st') ∧
      Verif.handlePart C S H f64 ty md t st = (r, t', st') ∧ LX R s' t' := by
  unfold Verif.handlePart
  rcases completeOld H st with ⟨_ | _, st1⟩
  · exact .inr ⟨_, _, _, _, rfl, rfl, h⟩
  simp only
  rcases partName md with _ | ⟨disp, nm⟩
  · exact .inr ⟨_, _, _, _, rfl, rfl, h⟩
  simp only
  cases forceText nm.strip with
  | error e => exact .inr ⟨_, _, _, _, rfl, rfl, h⟩
  | ok name =>
    cases ty with
    | field => exact h.handleField hR C S name (transferEnc md) md st1
    | file => exact h.handleFile hR H f64 name (transferEnc md) md disp st1
    | raw => exact .inr ⟨_, _, _, _, rfl, rfl, h⟩

end

/-! ### The body -/

section
variable {τ : Type} [Producer τ] {L : Lawful τ} {whole : Bytes}

/-- What has been taken from the body so far is ASCII. -/
structure AsciiSoFar (L : Lawful τ) (whole : Bytes) (s : LazyStream τ) : Prop where
  inv : L.Inv s.producer
  taken : ∃ pre, Py.isAscii pre = true ∧ whole = pre ++ L.sc s

/-- A part iterator and the one for the same separator as text. -/
def TextPart (L : Lawful τ) (whole : Bytes) (b : BoundaryIter τ) (t : TextBoundaryIter τ) : Prop :=
  t.iter = b ∧ AsciiSoFar L whole b.stream

theorem isAscii_append (a b : Bytes) : Py.isAscii (a ++ b) = (Py.isAscii a && Py.isAscii b) := by
  simp [Py.isAscii, List.all_append]

theorem unget_sc (L : Lawful τ) (s : LazyStream τ) (b : Bytes) :
    (s.unget b).2.producer = s.producer ∧
    (L.sc (s.unget b).2 = L.sc s ∨ L.sc (s.unget b).2 = b ++ L.sc s) ∧
    ((s.unget b).1 = .ok () → L.sc (s.unget b).2 = b ++ L.sc s) := by
  unfold LazyStream.unget
  split
  · rename_i h
    subst h
    exact ⟨rfl, .inl rfl, fun _ => rfl⟩
  simp only
  split
  · exact ⟨rfl, .inl rfl, fun h => by cases h⟩
  · refine ⟨rfl, .inr ?_, fun _ => ?_⟩ <;> simp [Lawful.sc]

omit [Producer τ] in
theorem unget_error {s s' : LazyStream τ} {b : Bytes} {e : Exc} (h : s.unget b = (.error e, s')) :
    e = .suspiciousMultipartForm := by
  unfold LazyStream.unget at h
  split at h
  · cases h
  simp only at h
  split at h
  · cases h; rfl
  · cases h

theorem AsciiSoFar.unget {s : LazyStream τ} {pre c : Bytes} (hi : L.Inv s.producer) (h1 : Py.isAscii pre = true)
    (h2 : Py.isAscii c = true) (hw : whole = pre ++ (c ++ L.sc s)) (n : Nat) :
    AsciiSoFar L whole (s.unget (c.drop n)).2 := by
  obtain ⟨a1, a2 | a2, -⟩ := unget_sc L s (c.drop n)
  · refine ⟨by rw [a1]; exact hi, pre ++ c, by rw [isAscii_append, h1, h2]; rfl, ?_⟩
    rw [a2, hw, List.append_assoc]
  · refine ⟨by rw [a1]; exact hi, pre ++ c.take n, ?_, ?_⟩
    · rw [← List.take_append_drop n c, isAscii_append] at h2
      rw [isAscii_append, h1]
      simp only [Bool.and_eq_true] at h2
      rw [h2.1]; rfl
    · rw [a2, hw]
      simp [← List.append_assoc]
      simp [List.append_assoc]

theorem TextPart.upTo (ne : NonEmptyChunks τ) : UpTo (¬ Py.isAscii whole = true) (TextPart L whole) where
  size p q h := by obtain ⟨rfl, -⟩ := h; rfl
  next p q h := by
    obtain ⟨rfl, hi, pre, h1, h2⟩ := h
    change (_ ∧ ∃ q', TextBoundaryIter.next q = _) ∨ ∃ r p' q', q.iter.next = _ ∧ TextBoundaryIter.next q = _ ∧ _
    unfold TextBoundaryIter.next
    by_cases hd : q.iter.done = true
    · rw [if_pos hd]
      refine .inr ⟨.ok none, q.iter, q, ?_, rfl, rfl, hi, pre, h1, h2⟩
      unfold BoundaryIter.next
      rw [if_pos hd]
    rw [if_neg hd]
    obtain ⟨x, st, s1, g1, g2, g3, -⟩ :=
      BoundaryIter.gather_spec L ne q.iter.rollback (q.iter.stream.size + 1) [] false q.iter.stream hi (by omega) (by simp)
        (by simp)
    simp only [List.nil_append] at g1
    have hw : whole = pre ++ (x ++ L.sc s1) := by rw [h2, g3]
    rw [g1]
    by_cases hx : x = []
    · subst hx
      refine .inr ⟨q.iter.next.1, q.iter.next.2, ⟨q.iter.next.2⟩, rfl, rfl, rfl, ?_⟩
      unfold BoundaryIter.next
      rw [if_neg hd, g1]
      exact ⟨g2, pre, h1, hw⟩
    · rw [decide_eq_false hx]
      by_cases ha : Py.isAscii x = true
      · simp only [Bool.not_false, ha, if_true]
        refine .inr ⟨q.iter.next.1, q.iter.next.2, ⟨q.iter.next.2⟩, rfl, rfl, rfl, ?_⟩
        unfold BoundaryIter.next
        rw [if_neg hd, g1, decide_eq_false hx]
        simp only [Bool.not_false, Bool.true_eq_false, if_false]
        split
        · rename_i end_ nx _
          have := AsciiSoFar.unget g2 h1 ha hw nx
          rcases hu : s1.unget (x.drop nx) with ⟨_ | _, s2⟩ <;> (rw [hu] at this; exact this)
        · split
          · exact ⟨g2, pre ++ x, by rw [isAscii_append, h1, ha]; rfl, by rw [hw, List.append_assoc]⟩
          · have := AsciiSoFar.unget g2 h1 ha hw (x.length - q.iter.rollback)
            rcases hu : s1.unget (x.drop (x.length - q.iter.rollback)) with ⟨_ | _, s2⟩ <;> (rw [hu] at this; exact this)
      · simp only [Bool.not_false, ha]
        refine .inl ⟨?_, _, rfl⟩
        rw [hw, isAscii_append, isAscii_append]
        simp only [Bool.not_eq_true] at ha
        rw [ha]
        simp

theorem AsciiSoFar.nextPart (ne : NonEmptyChunks τ) {s : LazyStream τ} (h : AsciiSoFar L whole s) (sep : Bytes) :
    (∃ e s', Verif.nextPart s sep = (.error e, s')) ∨
    (∃ s', Verif.nextPart s sep = (.ok none, s') ∧ Py.isAscii whole = true) ∨
    (∃ b, Verif.nextPart s sep = (.ok (some (LazyStream.mk' b)), b.stream) ∧ AsciiSoFar L whole b.stream) := by
  obtain ⟨hi, pre, h1, h2⟩ := h
  unfold Verif.nextPart BoundaryIter.create
  have e0 : s.read (some 1) = LazyStream.readLoop (s.size + 1) 1 [] s := by simp [LazyStream.read]
  rw [e0]
  unfold LazyStream.readLoop
  simp only [one_ne_zero, if_false]
  rcases LazyStream.next_spec L s hi with
    ⟨s1, e, a1, a2, a3, a4, a5, a6, a7, a8, a9, a10⟩ | ⟨c, s1, e, a1, a2, a3, a4, a5, a6, a7, a8⟩
  · rw [e]
    refine .inr (.inl ⟨s1, by simp, ?_⟩)
    rw [h2, a3, List.append_nil]; exact h1
  · rw [e]
    have hcne : c ≠ [] := by
      rcases a5 with ⟨b1, b2, _⟩ | ⟨_, _, b3⟩
      · rw [b2]; exact b1
      · exact ne _ _ _ b3
    simp only [List.nil_append]
    obtain ⟨u1, -, u2⟩ := unget_sc L s1 (c.drop 1)
    rcases hu : s1.unget (c.drop 1) with ⟨e | _, s2⟩
    · simp only
      rw [unget_error hu]
      exact .inl ⟨_, _, rfl⟩
    · rw [hu] at u1 u2
      have ht : (c.take 1).length = 1 := by
        have := List.length_pos_iff.2 hcne
        simp; omega
      simp only [ht, Nat.sub_self]
      have hrl : ∀ f, LazyStream.readLoop f 0 (c.take 1) s2 = (.ok (c.take 1), s2) := by
        intro f; cases f <;> simp [LazyStream.readLoop]
      rw [hrl]
      simp only
      rw [if_neg (by intro hh; rw [hh] at ht; simp at ht)]
      obtain ⟨v1, -, v2⟩ := unget_sc L s2 (c.take 1)
      rcases hv : s2.unget (c.take 1) with ⟨e | _, s3⟩
      · simp only
        rw [unget_error hv]
        exact .inl ⟨_, _, rfl⟩
      · rw [hv] at v1 v2
        refine .inr (.inr ⟨_, rfl, ?_, pre, h1, ?_⟩)
        · simp only at u1 v1 ⊢
          rw [v1, u1]; exact a1
        · simp only at u2 v2 ⊢
          rw [v2 trivial, u2 trivial, h2, a2]
          conv => lhs; rw [← List.take_append_drop 1 c]
          simp only [List.append_assoc]

end

section
variable {ρ σ F : Type} [Producer ρ] {L : Lawful (ChunkIter ρ)} {whole : Bytes}

theorem textPartsLoop_alike (C : Codecs) (S : Settings) (H : HandlerOps ρ σ F) (f64 : Nat) (sep : Bytes) :
    ∀ (f : Nat) (st : PState σ F) {s : LazyStream (ChunkIter ρ)}, AsciiSoFar L whole s →
    (¬ Py.isAscii whole = true ∧ ∃ x, textPartsLoop C S H f64 sep f s st = (.error .unicodeDecodeError, x)) ∨
    (textPartsLoop C S H f64 sep f s st = partsLoop C S H f64 sep f s st ∧
      ((partsLoop C S H f64 sep f s st).1 = .ok () → Py.isAscii whole = true)) := by
  intro f
  induction f with
  | zero => intro st s h; exact .inr ⟨rfl, fun h => by cases h⟩
  | succ f ih =>
    intro st s h
    unfold textPartsLoop partsLoop
    rw [nextTextPart_eq]
    rcases h.nextPart ChunkIter.nonEmpty sep with ⟨e, s1, e1⟩ | ⟨s1, e1, a1⟩ | ⟨b, e1, a1⟩
    · rw [e1]
      exact .inr ⟨rfl, fun h => by cases h⟩
    · rw [e1]
      exact .inr ⟨rfl, fun _ => a1⟩
    · rw [e1]
      simp only [Except.map, Option.map, LazyStream.mk']
      have hR : UpTo _ (TextPart L whole) := TextPart.upTo ChunkIter.nonEmpty
      have h0 : LX (TextPart L whole) (LazyStream.mk' b) (LazyStream.mk' (⟨b⟩ : TextBoundaryIter (ChunkIter ρ))) :=
        ⟨⟨rfl, a1⟩, rfl, rfl, rfl, rfl⟩
      simp only [LazyStream.mk'] at h0
      rcases h0.parseBoundaryStream hR C 1024 with ⟨hF, t1, e2⟩ | ⟨r, s2, t2, e1, e2, c1⟩
      · rw [e2]
        exact .inl ⟨hF, _, rfl⟩
      rw [e1, e2]
      match r with
      | .error e =>
        simp only
        rw [c1.prod.1]
        exact .inr ⟨rfl, fun h => by cases h⟩
      | .ok (ty, md) =>
        simp only
        rcases c1.handlePart hR C S H f64 ty md st with ⟨hF, ⟨t3, st3⟩, e2⟩ | ⟨r, s3, t3, st3, e1, e2, d1⟩
        · rw [e2]
          exact .inl ⟨hF, _, rfl⟩
        rw [e1, e2]
        match r with
        | .error e =>
          simp only
          rw [d1.prod.1]
          exact .inr ⟨rfl, fun h => by cases h⟩
        | .ok () =>
          simp only
          rw [d1.prod.1]
          exact ih st3 d1.prod.2

end
end Verif
