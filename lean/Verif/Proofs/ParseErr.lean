import Verif.Proofs.Parse
import Verif.Proofs.Header2
/-! Which exceptions multipart parsing can raise. -/

namespace Verif
open Spec

/-- No method of a handler raises `e` (`StopFutureHandlers` raised by `new_file` is caught). -/
structure HandlerOps.Avoids {ρ σ F : Type} (H : HandlerOps ρ σ F) (e : Exc) : Prop where
  rawInput : ∀ i a s w, (H.rawInput i a s w).1 ≠ .error e
  newFile : ∀ i a w, (H.newFile i a w).1 = .error e → e = .stopFutureHandlers
  receive : ∀ i d n w, (H.receive i d n w).1 ≠ .error e
  fileComplete : ∀ i n w, (H.fileComplete i n w).1 ≠ .error e
  uploadComplete : ∀ i w, (H.uploadComplete i w).1 ≠ .error e
  close : ∀ i w, (H.close i w).1 ≠ .error e

/-- No codec raises `e`. -/
structure Codecs.Avoids (C : Codecs) (e : Exc) : Prop where
  decodeReplace : ∀ enc b, C.decodeReplace enc b ≠ .error e
  decode : ∀ enc b, C.decode enc b ≠ .error e
  strEncode : ∀ enc b, C.strEncode enc b ≠ .error e
  encode : ∀ enc b, C.encode enc b ≠ .error e

theorem parseHeaderParams_cons (h : Bytes) : ∃ k r, parseHeaderParams (h.length + 2) (59 :: h) = k :: r :=
  ⟨_, _, by rw [parseHeaderParams]⟩

theorem parseParam_err {C : Codecs} {p : Bytes} {e : Exc} (hC : C.Avoids e)
    (h : parseParam C p = .error e) : e.isValueError = true := by
  unfold parseParam at h
  split at h
  · simp at h
  simp only at h
  split at h
  · simp at h; subst h; rfl
  split at h
  · split at h
    · split at h
      · simp at h; subst h; rfl
      split at h
      · simp at h; subst h; rfl
      split at h
      · rename_i e' he
        simp at h; subst h
        unfold unquoteAscii at he
        split at he
        · exact absurd he (hC.decodeReplace _ _)
        · simp at he
      · simp at h
    · simp at h; subst h; rfl
  · simp at h

theorem parseParams_err {C : Codecs} {e : Exc} (hC : C.Avoids e) : ∀ (ps : List Bytes)
    (d : Dict Bytes PyStr), parseParams C ps d = .error e → e.isValueError = true := by
  intro ps
  induction ps with
  | nil => intro d h; simp [parseParams] at h
  | cons p ps ih =>
    intro d h
    unfold parseParams at h
    split at h
    · rename_i hp; simp at h; subst h; exact parseParam_err hC hp
    · exact ih _ h
    · exact ih _ h

theorem parseHeader_err {C : Codecs} {e : Exc} (hC : C.Avoids e) {h : Bytes}
    (he : parseHeader C h = .error e) : e.isValueError = true := by
  unfold parseHeader at he
  obtain ⟨k, r, hk⟩ := parseHeaderParams_cons h
  rw [hk] at he
  simp only at he
  split at he
  · simp at he; subst he; rfl
  · split at he
    · rename_i hp; simp at he; subst he; exact parseParams_err hC _ _ hp
    · simp at he

theorem partHeaders_no_err {C : Codecs} {e : Exc} (hC : C.Avoids e) : ∀ (ls : List Bytes)
    (t : ItemType) (md : MetaData), partHeaders C ls t md ≠ .error e := by
  intro ls
  induction ls with
  | nil => intro t md; simp [partHeaders]
  | cons l ls ih =>
    intro t md
    unfold partHeaders
    split
    · rename_i e' he
      split
      · exact ih _ _
      · rename_i hv
        intro h
        simp at h; subst h
        apply hv
        unfold parsePartHeader at he
        split at he
        · rename_i hp; simp at he; subst he; exact parseHeader_err hC hp
        · split at he
          · simp at he; subst he; rfl
          · simp at he
    · exact ih _ _

theorem replaceEntity_err {t : Bytes} {e : Exc} (h : replaceEntity t = .error e) :
    e = .overflowError := by
  unfold replaceEntity at h
  split at h
  · simp only at h
    split at h
    · simp at h
    · unfold pyChr at h
      split at h
      · simp at h
      split at h
      · simp at h
      · simp at h; exact h.symm
  · simp at h

theorem unescapeLoop_err : ∀ (fuel : Nat) (s : Bytes) (e : Exc), unescapeLoop fuel s = .error e →
    e = .overflowError := by
  intro fuel
  induction fuel with
  | zero => intro s e h; simp [unescapeLoop] at h
  | succ fuel ih =>
    intro s e h
    cases s with
    | nil => simp [unescapeLoop] at h
    | cons c t =>
      unfold unescapeLoop at h
      have plain : (match unescapeLoop fuel t with
        | .error e => (.error e : Except Exc Bytes)
        | .ok r => .ok (c :: r)) = .error e → e = .overflowError := by
        intro h
        split at h
        · rename_i h'; simp at h; subst h; exact ih _ _ h'
        · simp at h
      simp only at h
      split at h
      · split at h
        · exact plain h
        · split at h
          · split at h
            · rename_i hr; simp at h; subst h; exact replaceEntity_err hr
            · split at h
              · rename_i h'; simp at h; subst h; exact ih _ _ h'
              · simp at h
          · exact plain h
      · exact plain h

theorem fileNameOf_err {n : PyStr} {e : Exc} (h : fileNameOf n = .error e) :
    e = .unicodeEncodeError ∨ e = .overflowError := by
  unfold fileNameOf at h
  split at h
  · rename_i h'
    simp at h; subst h
    left
    unfold forceText at h'
    split at h'
    · simp at h'
    · split at h' <;> simp at h'
      exact h'.symm
  · split at h
    · rename_i h'
      simp at h; subst h
      exact .inr (unescapeLoop_err _ _ _ h')
    · simp at h

theorem forceText_err {n : PyStr} {e : Exc} (h : forceText n = .error e) : e = .unicodeEncodeError := by
  unfold forceText at h
  split at h
  · simp at h
  · split at h <;> simp at h
    exact h.symm

theorem dispositionFileName_err {d : Dict Bytes PyStr} {e : Exc}
    (h : dispositionFileName d = .error e) : e = .unicodeEncodeError ∨ e = .overflowError := by
  unfold dispositionFileName at h
  split at h
  · split at h
    · exact fileNameOf_err h
    · simp at h
  · simp at h

theorem a2bLoop_length : ∀ (s : Bytes) (q c b : Nat) (out r : Bytes),
    Py.a2bLoop s q c b out = some r → 8 * r.length ≤ 8 * out.length + b + 6 * s.length := by
  intro s
  induction s with
  | nil =>
    intro q c b out r h
    unfold Py.a2bLoop at h
    split at h <;> simp at h
    subst h; simp
  | cons x t ih =>
    intro q c b out r h
    unfold Py.a2bLoop at h
    split at h
    · split at h
      · have := ih _ _ _ _ _ h; simp; omega
      · simp at h; subst h; simp; omega
    · split at h
      · have := ih _ _ _ _ _ h; simp; omega
      · simp only at h
        split at h
        · have := ih _ _ _ _ _ h; simp at this ⊢; omega
        · have := ih _ _ _ _ _ h; simp; omega

theorem b64decode_length {s r : Bytes} (h : Py.b64decode s = some r) : r.length ≤ s.length := by
  have := a2bLoop_length s 0 0 0 [] r h
  simp at this; omega

section
variable {ρ σ F : Type} {H : HandlerOps ρ σ F} {e : Exc}

theorem newFiles_no_err (hH : H.Avoids e) (a : NewFileArgs) : ∀ (is : List Nat) (w : σ),
    (newFiles H a is w).1 ≠ .error e := by
  intro is
  induction is with
  | nil => intro w; simp [newFiles]
  | cons i is ih =>
    intro w
    have := hH.newFile i a w
    unfold newFiles
    rcases h : H.newFile i a w with ⟨(e' | _), w'⟩
    · rw [h] at this
      cases e' <;> first | (simp; done) | (intro hx; simp only [Except.error.injEq] at hx; subst hx; simpa using this rfl)
    · exact ih _

theorem feedChunk_no_err (hH : H.Avoids e) : ∀ (is : List Nat) (d : Bytes) (cs : List Nat) (w : σ),
    (feedChunk H is d cs w).1 ≠ .error e := by
  intro is
  induction is with
  | nil => intro d cs w; simp [feedChunk]
  | cons i is ih =>
    intro d cs w
    have := hH.receive i d (cs.getD i 0) w
    unfold feedChunk
    rcases h : H.receive i d (cs.getD i 0) w with ⟨(e' | (_ | d')), w'⟩
    · rw [h] at this; simpa using this
    · simp
    · exact ih _ _ _

theorem completeLoop_no_err (hH : H.Avoids e) (cs : List Nat) : ∀ (is : List Nat) (w : σ),
    (completeLoop H cs is w).1 ≠ .error e := by
  intro is
  induction is with
  | nil => intro w; simp [completeLoop]
  | cons i is ih =>
    intro w
    have := hH.fileComplete i (cs.getD i 0) w
    unfold completeLoop
    rcases h : H.fileComplete i (cs.getD i 0) w with ⟨(e' | (_ | f)), w'⟩
    · rw [h] at this; simpa using this
    · exact ih _
    · simp only
      split
      · simp
      · exact ih _

theorem closeFiles_no_err (hH : H.Avoids e) : ∀ (is : List Nat) (w : σ),
    (closeFiles H is w).1 ≠ .error e := by
  intro is
  induction is with
  | nil => intro w; simp [closeFiles]
  | cons i is ih =>
    intro w
    have := hH.close i w
    unfold closeFiles
    rcases h : H.close i w with ⟨(e' | _), w'⟩
    · rw [h] at this; simpa using this
    · exact ih _

theorem uploadCompleteLoop_no_err (hH : H.Avoids e) : ∀ (is : List Nat) (w : σ),
    (uploadCompleteLoop H is w).1 ≠ .error e := by
  intro is
  induction is with
  | nil => intro w; simp [uploadCompleteLoop]
  | cons i is ih =>
    intro w
    have := hH.uploadComplete i w
    unfold uploadCompleteLoop
    rcases h : H.uploadComplete i w with ⟨(e' | b), w'⟩
    · rw [h] at this; simpa using this
    · simp only
      split
      · simp
      · exact ih _

theorem completeOld_no_err (hH : H.Avoids e) (st : PState σ F) : (completeOld H st).1 ≠ .error e := by
  unfold completeOld
  split
  · rename_i c n _
    have := completeLoop_no_err hH st.counters (List.range H.count) st.world
    unfold handleFileComplete
    rcases h : completeLoop H st.counters (List.range H.count) st.world with ⟨(e' | (_ | f)), w'⟩
    · rw [h] at this; simpa using this
    · simp
    · simp
  · simp

theorem completeOld_num {st st1 : PState σ F} {r} (h : completeOld H st = (r, st1)) :
    st1.numBytes = st.numBytes ∧ st1.numKeys = st.numKeys ∧ st1.post = st.post := by
  unfold completeOld at h
  split at h
  · unfold handleFileComplete at h
    rcases hc : completeLoop H st.counters (List.range H.count) st.world with ⟨(e' | (_ | f)), w'⟩ <;>
      rw [hc] at h <;> simp only [Prod.mk.injEq] at h <;> obtain ⟨_, rfl⟩ := h <;> simp
  · simp only [Prod.mk.injEq] at h; obtain ⟨_, rfl⟩ := h; simp

/-- What `appendlist` of a `QueryDict` makes of a key that has been converted. -/
def Appended (C : Codecs) (S : Settings) (post : MVD PostItem) (key : Bytes) (item : PostItem) (post' : MVD PostItem) :
    Prop :=
  post' = post.append key item ∨
    ((Dict.get? post key).isSome = false ∧ ∃ key', bytesToText C S key = .ok key' ∧ key' ≠ key ∧
      post' = Dict.set post key' [])

theorem postAppend_ok {C : Codecs} {S : Settings} {post post' : MVD PostItem} {name item}
    (h : postAppend C S post name item = .ok post') :
    ∃ key, bytesToText C S name = .ok key ∧ Appended C S post key item post' := by
  unfold postAppend at h
  cases hn : bytesToText C S name with
  | error e => rw [hn] at h; cases h
  | ok key =>
    rw [hn] at h
    simp only at h
    refine ⟨key, rfl, ?_⟩
    split at h
    · cases h; exact .inl rfl
    · rename_i hs
      cases hk : bytesToText C S key with
      | error e => rw [hk] at h; cases h
      | ok key' =>
        rw [hk] at h
        simp only at h
        split at h
        · cases h; exact .inl rfl
        · rename_i hne
          cases h
          exact .inr ⟨by simpa using hs, key', hk, hne, rfl⟩

theorem postAppend_err {C : Codecs} {S : Settings} {post : MVD PostItem} {name item} {e : Exc}
    (h : postAppend C S post name item = .error e) : ∃ b, C.strEncode S.defaultCharset b = .error e := by
  unfold postAppend bytesToText at h
  cases hn : C.strEncode S.defaultCharset name with
  | error e' => rw [hn] at h; cases h; exact ⟨_, hn⟩
  | ok key =>
    rw [hn] at h
    simp only at h
    split at h
    · cases h
    · cases hk : C.strEncode S.defaultCharset key with
      | error e' => rw [hk] at h; cases h; exact ⟨_, hk⟩
      | ok key' => rw [hk] at h; simp only at h; split at h <;> cases h

/-- Converting a key twice is converting it once. -/
def Codecs.Settles (C : Codecs) (S : Settings) : Prop :=
  ∀ b k, C.strEncode S.defaultCharset b = .ok k → C.strEncode S.defaultCharset k = .ok k

theorem Appended.settled {C : Codecs} {S : Settings} {post post' : MVD PostItem} {name key item} (hC : C.Settles S)
    (hk : bytesToText C S name = .ok key) (h : Appended C S post key item post') : post' = post.append key item := by
  rcases h with h | ⟨_, k, h1, h2, _⟩
  · exact h
  · have := hC _ _ hk
    unfold bytesToText at h1
    rw [this] at h1
    cases h1
    exact absurd rfl h2

/-- A codec that leaves the name as it is. -/
theorem postAppend_plain {C : Codecs} {S : Settings} (post : MVD PostItem) {name} (item)
    (h : C.strEncode S.defaultCharset name = .ok name) : postAppend C S post name item = .ok (post.append name item) := by
  simp [postAppend, bytesToText, h]

theorem storeField_err {C : Codecs} {S : Settings} {name te md raw} {st st2 : PState σ F}
    (hC : C.Avoids e) (h : storeField C S name te md raw st = (.error e, st2)) :
    e = .typeError ∨ e = .requestDataTooBig := by
  unfold storeField at h
  simp only at h
  split at h
  · simp only [Prod.mk.injEq, Except.error.injEq] at h; exact .inl h.1.symm
  · split at h
    · simp only [Prod.mk.injEq, Except.error.injEq] at h; exact .inr h.1.symm
    · split at h
      · rename_i hb
        simp only [Prod.mk.injEq, Except.error.injEq] at h
        rw [h.1] at hb
        obtain ⟨b, hb⟩ := postAppend_err hb
        exact absurd hb (hC.strEncode _ _)
      · simp at h

/-- A state after a stored field. -/
theorem storeField_state {C : Codecs} {S : Settings} {name te md raw} {st st2 : PState σ F}
    (h : storeField C S name te md raw st = (.ok (), st2)) :
    ∃ key item post, bytesToText C S name = .ok key ∧ item.data.length ≤ raw.length ∧
      (te ≠ some b!"base64" → item.data = raw) ∧ item.transferEncoding = te.getD [] ∧
      item.contentType = Py.ustrip ((md.get? b!"content-type").getD ([], [])).1 ∧
      item.extra = ((md.get? b!"content-type").getD ([], [])).2 ∧
      (te = some b!"base64" → Py.b64decode raw = some item.data) ∧
      S.dataMaxMemory.any (· < (st2.numBytes : Int)) = false ∧ Appended C S st.post key item post ∧
      postAppend C S st.post name item = .ok post ∧
      st2 = { st with numBytes := st.numBytes + raw.length + (name.length + 2), post := post } := by
  unfold storeField at h
  simp only at h
  split at h
  · simp at h
  · rename_i data hd
    split at h
    · simp at h
    · rename_i hlim
      split at h
      · simp at h
      · rename_i post hp
        simp only [Prod.mk.injEq, true_and] at h
        subst h
        obtain ⟨key, hk, hap⟩ := postAppend_ok hp
        refine ⟨key, _, post, hk, ?_, ?_, rfl, rfl, rfl, ?_, by simpa using hlim, hap, hp, rfl⟩
        · split at hd
          · exact b64decode_length hd
          · simp at hd; subst hd; exact le_refl _
        · intro hte
          rw [if_neg hte] at hd
          simp at hd; exact hd.symm
        · intro hte
          rw [if_pos hte] at hd; exact hd

/-- The limits hold in a state. -/
structure Within (S : Settings) (st : PState σ F) : Prop where
  bytes : S.dataMaxMemory.any (· < (st.numBytes : Int)) = false
  keys : S.maxFields.any (· < (st.numKeys : Int)) = false

theorem PartRun.within {C : Codecs} {S : Settings} {fuel64 : Nat} {t md content} {st st' : PState σ F}
    {b : Bool} (h : PartRun C S H fuel64 t md content st b (.ok ()) st') (hw : Within S st) :
    Within S st' := by
  generalize hr : (Except.ok () : Except Exc Unit) = r at h
  cases h with
  | completeErr => simp at hr
  | nameErr => simp at hr
  | tooMany => simp at hr
  | negative => simp at hr
  | fileNameErr => simp at hr
  | fileErr => simp at hr
  | skip hc => obtain ⟨a, b, _⟩ := completeOld_num hc; exact ⟨by rw [a]; exact hw.1, by rw [b]; exact hw.2⟩
  | noFileName hc => obtain ⟨a, b, _⟩ := completeOld_num hc; exact ⟨by rw [a]; exact hw.1, by rw [b]; exact hw.2⟩
  | file hc => obtain ⟨a, b, _⟩ := completeOld_num hc; exact ⟨by simp only [a]; exact hw.1, by simp only [b]; exact hw.2⟩
  | fileSkip hc => obtain ⟨a, b, _⟩ := completeOld_num hc; exact ⟨by simp only [a]; exact hw.1, by simp only [b]; exact hw.2⟩
  | field hc _ _ _ hk _ _ hst =>
    subst hr
    obtain ⟨key, item, post, _, _, _, _, _, _, _, hb, _, _, rfl⟩ := storeField_state hst
    exact ⟨hb, hk⟩

/-- The part can make the base64 loop spin. -/
def SpinPart (C : Codecs) (fuel64 : Nat) (P : Bytes) : Prop :=
  ∃ md content, PartHead C P .file md content ∧ transferEnc md = some b!"base64" ∧
    (content.length ≤ fuel64 → (Py.removeSpaces content).length % 4 ≠ 0)

/-- Cutting whole groups of four from the front changes nothing. -/
theorem spin_rest {fuel64 : Nat} {raw rest : Bytes} (h1 : (Py.removeSpaces raw).length % 4 = 0)
    (h2 : rest.length ≤ fuel64 → (Py.removeSpaces rest).length % 4 ≠ 0) :
    (raw ++ rest).length ≤ fuel64 → (Py.removeSpaces (raw ++ rest)).length % 4 ≠ 0 := by
  intro h
  rw [List.length_append] at h
  have := h2 (by omega)
  simp only [Py.removeSpaces, List.filter_append, List.length_append] at *
  omega

theorem FileRun.err {fuel64 : Nat} {b64 : Bool} {content cs w r cs' w'} (hH : H.Avoids e)
    (h : FileRun H fuel64 b64 content cs w r cs' w') (hr : r = .error e) :
    e = .typeError ∨ (e = .diverge ∧ b64 = true ∧
      (content.length ≤ fuel64 → (Py.removeSpaces content).length % 4 ≠ 0)) := by
  induction h with
  | stop => simp at hr
  | step _ hd _ _ ih =>
    rcases ih hr with h | ⟨h1, h2, h3⟩
    · exact .inl h
    · exact .inr ⟨h1, h2, spin_rest (hd h2).1 h3⟩
  | fail _ _ hf =>
    simp at hr; subst hr
    exact absurd (by rw [hf]) (feedChunk_no_err hH _ _ _ _)
  | badBase64 => simp at hr; exact .inl hr.symm
  | spin hb hc => simp at hr; exact .inr ⟨hr.symm, hb, hc⟩

/-- Exceptions raised by the parser itself. -/
def ParserExc (e : Exc) : Prop :=
  e = .tooManyFieldsSent ∨ e = .requestDataTooBig ∨ e = .typeError ∨ e = .unicodeEncodeError ∨
    e = .overflowError

theorem PartRun.err {C : Codecs} {S : Settings} {fuel64 : Nat} {P t md content} {st st' : PState σ F}
    {b : Bool} {r} (hP : PartHead C P t md content) (hH : H.Avoids e) (hC : C.Avoids e)
    (h : PartRun C S H fuel64 t md content st b r st') (hr : r = .error e) (hw : Within S st) :
    ParserExc e ∨ (e = .diverge ∧ SpinPart C fuel64 P) := by
  cases h with
  | completeErr hc =>
    simp at hr; subst hr
    exact absurd (by rw [hc]) (completeOld_no_err hH st)
  | skip => simp at hr
  | nameErr _ _ hn => simp at hr; subst hr; exact .inl (.inr (.inr (.inr (.inl (forceText_err hn)))))
  | tooMany => simp at hr; exact .inl (.inl hr.symm)
  | negative hc _ _ _ hneg =>
    rw [(completeOld_num hc).1, hw.1] at hneg; simp at hneg
  | field _ _ _ _ _ _ _ hst =>
    subst hr
    rcases storeField_err hC hst with h | h
    · exact .inl (.inr (.inr (.inl h)))
    · exact .inl (.inr (.inl h))
  | fileNameErr _ _ _ _ hd =>
    simp at hr; subst hr
    rcases dispositionFileName_err hd with h | h
    · exact .inl (.inr (.inr (.inr (.inl h))))
    · exact .inl (.inr (.inr (.inr (.inr h))))
  | noFileName => simp at hr
  | file => simp at hr
  | fileSkip _ _ _ _ _ _ _ hcl =>
    subst hr
    exact absurd (by rw [hcl]) (closeFiles_no_err hH _ _)
  | fileErr _ _ _ ht _ _ hrecv _ =>
    simp at hr; subst hr ht
    generalize hq : (Except.error _ : Except Exc Unit) = q at hrecv
    cases hrecv with
    | refused hn =>
      simp at hq; subst hq
      exact absurd (by rw [hn]) (newFiles_no_err hH _ _ _)
    | fed _ hf =>
      rcases hf.err hH hq.symm with h | ⟨h1, h2, h3⟩
      · exact .inl (.inr (.inr (.inl h)))
      · refine .inr ⟨h1, md, content, hP, of_decide_eq_true h2, h3⟩

theorem Parses.err {C : Codecs} {S : Settings} {fuel64 : Nat} {sep D D' : Bytes} {st st' : PState σ F}
    {r} (hH : H.Avoids e) (hC : C.Avoids e)
    (h : Parses C S H fuel64 sep D st r D' st') (hr : r = .error e) (hw : Within S st) :
    ParserExc e ∨ (e = .diverge ∧ ∃ D1, D1 <:+ D ∧ SpinPart C fuel64 (cut sep D1)) := by
  induction h with
  | done => simp at hr
  | headErr _ hh _ =>
    simp at hr; subst hr
    obtain ⟨i, _, h⟩ := hh
    exact absurd h (partHeaders_no_err hC _ _ _)
  | @partErr D _ _ _ _ _ _ _ _ _ hP hrun _ =>
    rcases hrun.err hP hH hC hr hw with h | ⟨h1, h2⟩
    · exact .inl h
    · exact .inr ⟨h1, D, List.suffix_refl _, h2⟩
  | part _ hP hrun hsuf _ _ _ ih =>
    rcases ih hr (hrun.within hw) with h | ⟨h1, D1, h2, h3⟩
    · exact .inl h
    · exact .inr ⟨h1, D1, h2.trans hsuf, h3⟩

theorem Parses.within {C : Codecs} {S : Settings} {fuel64 : Nat} {sep D D' : Bytes}
    {st st' : PState σ F} {r} (h : Parses C S H fuel64 sep D st r D' st') (hr : r = .ok ())
    (hw : Within S st) : Within S st' := by
  induction h with
  | done => exact hw
  | headErr => simp at hr
  | partErr => simp at hr
  | part _ _ hrun _ _ _ _ ih => exact ih hr (hrun.within hw)

end
end Verif
