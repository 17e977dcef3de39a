import Verif.Proofs.ParseLimits
/-! The memory limit for form fields refuses exactly the forms that are too big. -/

namespace Verif
open Spec

section
variable {τ : Type} [Producer τ]

theorem joinAll_readLoop : ∀ (fuel : Nat) (acc : Bytes) (s : LazyStream τ) {res s'},
    LazyStream.joinAll fuel acc s = (.ok res, s') →
    ∃ out, res = acc ++ out ∧ ∀ rem, out.length < rem → LazyStream.readLoop fuel rem acc s = (.ok res, s') := by
  intro fuel
  induction fuel with
  | zero => intro acc s res s' h; simp [LazyStream.joinAll] at h
  | succ fuel ih =>
    intro acc s res s' h
    unfold LazyStream.joinAll at h
    rcases hn : s.next with ⟨(e | (_ | chunk)), s1⟩
    · rw [hn] at h; simp at h
    · rw [hn] at h
      simp only [Prod.mk.injEq, Except.ok.injEq] at h
      obtain ⟨rfl, rfl⟩ := h
      refine ⟨[], by simp, fun rem hr => ?_⟩
      unfold LazyStream.readLoop
      rw [if_neg (by simp at hr; omega), hn]
    · rw [hn] at h
      simp only at h
      obtain ⟨out, rfl, h2⟩ := ih _ _ h
      refine ⟨chunk ++ out, by simp, fun rem hr => ?_⟩
      simp only [List.length_append] at hr
      unfold LazyStream.readLoop
      rw [if_neg (by omega), hn]
      simp only
      rw [List.drop_of_length_le (by omega), List.take_of_length_le (by omega)]
      simp only [LazyStream.unget, if_true]
      exact h2 _ (by omega)

/-- Asking for more than there is reads as reading to the end does. -/
theorem read_more (s : LazyStream τ) (hl : s.length = none) {out s'} (h : s.read none = (.ok out, s')) (k : Nat)
    (hk : out.length < k) : s.read (some (k : Int)) = (.ok out, s') := by
  unfold LazyStream.read at h ⊢
  simp only [hl] at h
  obtain ⟨o, h1, h2⟩ := joinAll_readLoop _ _ _ h
  simp only [List.nil_append] at h1
  subst h1
  simp only [Int.toNat_natCast]
  rw [if_neg (by omega)]
  exact h2 _ hk

end

section
variable {ρ σ F τ : Type} [Producer τ] {L : Lawful τ}

/-- What handling a part that does not fail does to the counter of bytes and to `POST`. -/
def Grows (C : Codecs) (S : Settings) (st st' : PState σ F) : Prop :=
  (st'.numBytes = st.numBytes ∧ st'.post = st.post) ∨
  ∃ name key te raw item, st'.numBytes = st.numBytes + raw.length + (name.length + 2) ∧
    st'.post = st.post.append key item ∧ bytesToText C S name = .ok key ∧
    (te ≠ some b!"base64" → item.data = raw) ∧ item.transferEncoding = te.getD []

theorem PartRun.grows {C : Codecs} {S : Settings} {H : HandlerOps ρ σ F} {fuel64 : Nat} {t md content}
    {st st' : PState σ F} {b : Bool} {r} (hC : ∀ b, C.Avoids (.stopUpload b)) (hset : C.Settles S)
    (h : PartRun C S H fuel64 t md content st b r st') (hr : r = .ok () ∨ ∃ b, r = .error (.stopUpload b)) :
    Grows C S st st' := by
  have key : ∀ {st1}, (∃ r1, completeOld H st = (r1, st1)) → st1.numBytes = st.numBytes ∧ st1.post = st.post := by
    rintro st1 ⟨r1, h1⟩
    obtain ⟨a, _, c⟩ := completeOld_num h1
    exact ⟨a, c⟩
  cases h with
  | completeErr h1 => have k := key ⟨_, h1⟩; exact .inl ⟨k.1, k.2⟩
  | skip h1 => have k := key ⟨_, h1⟩; exact .inl ⟨k.1, k.2⟩
  | nameErr h1 => have k := key ⟨_, h1⟩; exact .inl ⟨k.1, k.2⟩
  | tooMany h1 => have k := key ⟨_, h1⟩; exact .inl ⟨k.1, k.2⟩
  | negative h1 => have k := key ⟨_, h1⟩; exact .inl ⟨k.1, k.2⟩
  | fileNameErr h1 => have k := key ⟨_, h1⟩; exact .inl ⟨k.1, k.2⟩
  | noFileName h1 => have k := key ⟨_, h1⟩; exact .inl ⟨k.1, k.2⟩
  | file h1 => have k := key ⟨_, h1⟩; exact .inl ⟨k.1, k.2⟩
  | fileSkip h1 => have k := key ⟨_, h1⟩; exact .inl ⟨k.1, k.2⟩
  | fileErr h1 => have k := key ⟨_, h1⟩; exact .inl ⟨k.1, k.2⟩
  | @field st1 d n name raw r st2 h1 _ _ _ _ _ _ hst =>
    obtain ⟨a, c⟩ := key ⟨_, h1⟩
    rcases hr with rfl | ⟨b, rfl⟩
    · obtain ⟨key, item, post, k1, _, k2, k3, _, _, _, _, kp, _, k4⟩ := storeField_state hst
      have kp := kp.settled hset k1
      subst kp
      right
      refine ⟨name, key, transferEnc md, raw, item, ?_, ?_, k1, k2, k3⟩
      · rw [k4]; simp [a]
      · rw [k4]; simp [c]
    · rcases storeField_err (hC b) hst with h | h <;> simp at h

theorem mem_items_appended {α : Type} (k : Bytes) (v : α) (d : MVD α) (p : Bytes × α) :
    p ∈ items (d.append k v) ↔ p ∈ items d ∨ p = (k, v) := by
  have h : ∀ d : MVD α, p ∈ items (d.append k v) ↔ p ∈ items d ∨ p = (k, v) := by
    intro d
    unfold MVD.append
    induction d with
    | nil => simp [items, Dict.set, Dict.get?]
    | cons q t ih =>
      obtain ⟨a, b⟩ := q
      unfold Dict.set Dict.get?
      by_cases h : a = k
      · subst h
        simp only [items, if_true, List.flatMap_cons, List.mem_append, List.map_append, List.map_cons, List.map_nil,
          List.mem_singleton, Option.getD_some]
        tauto
      · simp only [h, if_false]
        simp only [items, List.flatMap_cons, List.mem_append] at ih ⊢
        rw [ih]
        tauto
  exact h d

/-- No field was sent in base64. -/
def NoBase64 (post : MVD PostItem) : Prop := ∀ p ∈ items post, p.2.transferEncoding ≠ b!"base64"

/-- The counter is the size of what is stored. -/
def SizeExact (st : PState σ F) : Prop :=
  NoBase64 st.post → ((items st.post).map fieldSize).sum = st.numBytes

theorem Grows.mono {C : Codecs} {S : Settings} {st st' : PState σ F} (h : Grows C S st st') :
    st.numBytes ≤ st'.numBytes ∧ ∀ p ∈ items st.post, p ∈ items st'.post := by
  rcases h with ⟨a, b⟩ | ⟨name, key, te, raw, item, a, b, _⟩
  · rw [a, b]; exact ⟨le_refl _, fun _ h => h⟩
  · rw [a, b]
    exact ⟨by omega, fun p hp => (mem_items_appended _ _ _ p).2 (.inl hp)⟩

theorem Grows.exact {C : Codecs} {S : Settings} (hcs : ∀ b k, C.strEncode S.defaultCharset b = .ok k → k = b)
    {st st' : PState σ F} (h : Grows C S st st') (he : SizeExact st) : SizeExact st' := by
  intro hb
  have hb0 : NoBase64 st.post := fun p hp => hb p (h.mono.2 p hp)
  rcases h with ⟨a, b⟩ | ⟨name, key, te, raw, item, a, b, c, d, e⟩
  · rw [a, b]; exact he hb0
  · rw [a, b, items_append, he hb0]
    have hk := hcs _ _ c
    have ht : te ≠ some b!"base64" := by
      rintro rfl
      exact hb (key, item) (by rw [b]; exact (mem_items_appended _ _ _ _).2 (.inr rfl)) (by rw [e]; rfl)
    rw [← d ht]
    simp only [fieldSize, hk]
    omega

/-- What the memory limit `n` makes of the handling of a part. -/
theorem handlePart_mem (C : Codecs) (S : Settings) (H : HandlerOps ρ σ F) (fuel64 : Nat) (n : Int)
    (t : ItemType) (md : MetaData) (s : LazyStream τ) (st : PState σ F) (hs : SOK L s)
    (hC : ∀ b, C.Avoids (.stopUpload b)) (hset : C.Settles S)
    (h : (st.numBytes : Int) ≤ n) {r s' st'}
    (h0 : handlePart C { S with dataMaxMemory := none } H fuel64 t md s st = (r, s', st'))
    (hr : r = .ok () ∨ ∃ b, r = .error (.stopUpload b)) :
    ((st'.numBytes : Int) ≤ n ∧
      handlePart C { S with dataMaxMemory := some n } H fuel64 t md s st = (r, s', st')) ∨
    (n < st'.numBytes ∧ ∃ s'' st'', handlePart C { S with dataMaxMemory := some n } H fuel64 t md s st =
      (.error .requestDataTooBig, s'', st'')) ∨
    (n < st'.numBytes ∧ (∃ p ∈ items st'.post, p.2.transferEncoding = b!"base64") ∧
      ∃ s'' st'', handlePart C { S with dataMaxMemory := some n } H fuel64 t md s st = (.error .typeError, s'', st'')) := by
  unfold handlePart at h0 ⊢
  rcases hc : completeOld H st with ⟨(e | _), st1⟩
  · rw [hc] at h0
    simp only [Prod.mk.injEq] at h0
    obtain ⟨rfl, rfl, rfl⟩ := h0
    left; exact ⟨by rw [(completeOld_num hc).1]; exact h, rfl⟩
  rw [hc] at h0
  have hk := (completeOld_num hc).1
  simp only at h0 ⊢
  cases hn : partName md with
  | none =>
    rw [hn] at h0
    simp only [Prod.mk.injEq] at h0
    obtain ⟨rfl, rfl, rfl⟩ := h0
    left; exact ⟨by rw [hk]; exact h, rfl⟩
  | some dn =>
    obtain ⟨d, nm⟩ := dn
    rw [hn] at h0
    simp only at h0 ⊢
    cases hf : forceText nm.strip with
    | error e =>
      rw [hf] at h0
      simp only [Prod.mk.injEq] at h0
      obtain ⟨rfl, rfl, rfl⟩ := h0
      left; exact ⟨by rw [hk]; exact h, rfl⟩
    | ok name =>
      rw [hf] at h0
      simp only at h0 ⊢
      cases t with
      | raw =>
        simp only [Prod.mk.injEq] at h0
        obtain ⟨rfl, rfl, rfl⟩ := h0
        left; exact ⟨by rw [hk]; exact h, rfl⟩
      | file =>
        simp only at h0 ⊢
        left; refine ⟨?_, h0⟩
        have : st'.numBytes = st1.numBytes := by
          unfold handleFile at h0
          split at h0
          · simp only [Prod.mk.injEq] at h0; rw [← h0.2.2]
          · split at h0
            · simp only [Prod.mk.injEq] at h0; rw [← h0.2.2]
            · split at h0
              · simp only [Prod.mk.injEq] at h0; rw [← h0.2.2]
              · split at h0
                · simp only [Prod.mk.injEq] at h0; rw [← h0.2.2]
                · split at h0
                  · simp only [Prod.mk.injEq] at h0; rw [← h0.2.2]
                  · simp only [Prod.mk.injEq] at h0; rw [← h0.2.2]
              · simp only [Prod.mk.injEq] at h0; rw [← h0.2.2]
        rw [this, hk]; exact h
      | field =>
        simp only [handleField, Option.map_none, Option.map_some] at h0 ⊢
        by_cases hm : S.maxFields.any (· < ((st1.numKeys + 1 : Nat) : Int)) = true
        · rw [if_pos hm] at h0 ⊢
          simp only [Prod.mk.injEq] at h0
          obtain ⟨rfl, rfl, rfl⟩ := h0
          left; exact ⟨by simp only [hk]; exact h, rfl⟩
        · rw [if_neg hm] at h0 ⊢
          obtain ⟨s1, a1, a2, _, _⟩ := hs.readAll
          rw [a1] at h0
          simp only at h0
          rcases hst : storeField C { S with dataMaxMemory := none } name (transferEnc md) md (L.sc s)
            { st1 with numKeys := st1.numKeys + 1 } with ⟨r1, st2⟩
          rw [hst] at h0
          simp only [Prod.mk.injEq] at h0
          obtain ⟨rfl, rfl, rfl⟩ := h0
          rcases hr with rfl | ⟨b, rfl⟩
          · obtain ⟨key, item, post, k1, _, _, k3, _, _, k5, _, kp, _, k4⟩ := storeField_state hst
            have kp := kp.settled (S := { S with dataMaxMemory := none }) hset k1
            subst kp
            have hnb : st2.numBytes = st1.numBytes + (L.sc s).length + (name.length + 2) := by rw [k4]
            obtain ⟨k, hk'⟩ := Int.eq_ofNat_of_zero_le (show 0 ≤ n - (st1.numBytes : Int) by rw [hk]; omega)
            rw [hk']
            by_cases hle : (st2.numBytes : Int) ≤ n
            · left
              refine ⟨hle, ?_⟩
              have hrd := read_more s hs.len a1 k (by omega)
              rw [hrd]
              simp only
              have : storeField C { S with dataMaxMemory := some n } name (transferEnc md) md (L.sc s)
                  { st1 with numKeys := st1.numKeys + 1 } = (.ok (), st2) := by
                unfold storeField at hst ⊢
                simp only at hst ⊢
                split at hst
                · simp at hst
                · simp only [Option.any_none, Bool.false_eq_true, if_false] at hst
                  rw [if_neg (by simp only [Option.any_some, decide_eq_true_eq]; push_cast; omega)]
                  exact hst
              rw [this]
            · right
              have hlt : n < st2.numBytes := by omega
              obtain ⟨s2, c1, _⟩ := hs.read k
              have c1' : s.read (some (k : Int)) = (.ok ((L.sc s).take k), s2) := c1
              rw [c1']
              simp only
              cases hdec : (if transferEnc md = some b!"base64" then Py.b64decode ((L.sc s).take k)
                  else some ((L.sc s).take k)) with
              | none =>
                right
                have hte : transferEnc md = some b!"base64" := by
                  by_contra hx
                  rw [if_neg hx] at hdec
                  simp at hdec
                refine ⟨hlt, ⟨(key, item), ?_, by rw [k3, hte]; rfl⟩, s2, ?_⟩
                · rw [k4]; exact (mem_items_appended _ _ _ _).2 (.inr rfl)
                · unfold storeField
                  simp only [hdec]
                  exact ⟨_, rfl⟩
              | some data =>
                left
                refine ⟨hlt, s2, ?_⟩
                unfold storeField
                simp only [hdec]
                rw [if_pos (by
                  simp only [Option.any_some, decide_eq_true_eq, List.length_take]
                  push_cast
                  omega)]
                exact ⟨_, rfl⟩
          · rcases storeField_err (hC b) hst with h | h <;> simp at h

end

section
variable {ρ σ F : Type} [Producer ρ]

theorem partsLoop_grows (L : Lawful (ChunkIter ρ)) (C : Codecs) (S : Settings) (H : HandlerOps ρ σ F) (fuel64 : Nat)
    {sep : Bytes} (hsep : SepOK sep) (hC : ∀ b, C.Avoids (.stopUpload b))
    (hcs : ∀ b k, C.strEncode S.defaultCharset b = .ok k → k = b) :
    ∀ (fuel : Nat) (s : LazyStream (ChunkIter ρ)) (st : PState σ F), L.Inv s.producer →
    Strong s.history s.leftover.length → s.length = none → SizeExact st → ∀ {r s' st'},
    partsLoop C S H fuel64 sep fuel s st = (r, s', st') →
    (r = .ok () ∨ ∃ b, r = .error (.stopUpload b)) →
    SizeExact st' ∧ st.numBytes ≤ st'.numBytes ∧ ∀ p ∈ items st.post, p ∈ items st'.post := by
  intro fuel
  induction fuel with
  | zero =>
    intro s st _ _ _ hex r s' st' h hr
    simp only [partsLoop, Prod.mk.injEq] at h
    rcases hr with rfl | ⟨b, rfl⟩ <;> simp at h
  | succ fuel ih =>
    intro s st hI hH hl hex r s' st' h hr
    unfold partsLoop at h
    rcases nextPart_spec L ChunkIter.nonEmpty hsep s hI hH hl with
      ⟨s1, e, _⟩ | ⟨b, e, b1, b2, b3, b4⟩
    · rw [e] at h
      simp only [Prod.mk.injEq] at h
      obtain ⟨rfl, rfl, rfl⟩ := h
      exact ⟨hex, le_refl _, fun _ h => h⟩
    · rw [e] at h
      simp only at h
      rcases parseBoundaryStream_spec L C ChunkIter.nonEmpty hsep (L.sc s) s.size b1 b b2 b3 b4 with
        ⟨_, s1, a1, _⟩ | ⟨t, md, content, sub1, a1, a2, a3, _⟩
      · rw [a1] at h
        simp only [Prod.mk.injEq] at h
        obtain ⟨rfl, rfl, rfl⟩ := h
        exact ⟨hex, le_refl _, fun _ h => h⟩
      · rw [a1] at h
        simp only at h
        obtain ⟨bb, r1, sub2, st2, c1, c2, c3, _⟩ :=
          handlePart_spec C S H fuel64 t md sub1 st a3 (partHead_raw a2)
        rw [c1] at h
        obtain ⟨g1, g2, _, _, _, g6, _⟩ := lawful_progress L ChunkIter.nonEmpty hsep _ _ b1 _ c2
        rcases r1 with e | _
        · simp only [Prod.mk.injEq] at h
          obtain ⟨rfl, rfl, rfl⟩ := h
          have hgr := c3.grows hC (.ofId hcs) hr
          exact ⟨hgr.exact hcs hex, hgr.mono⟩
        · simp only at h
          have hgr := c3.grows hC (.ofId hcs) (.inl rfl)
          have hmo := hgr.mono
          obtain ⟨i1, i2, i3⟩ := ih _ _ g1 g2 g6 (hgr.exact hcs hex) h hr
          exact ⟨i1, hmo.1.trans i2, fun p hp => i3 p (hmo.2 p hp)⟩

theorem partsLoop_mem (L : Lawful (ChunkIter ρ)) (C : Codecs) (S : Settings) (H : HandlerOps ρ σ F) (fuel64 : Nat)
    (n : Int) {sep : Bytes} (hsep : SepOK sep) (hC : ∀ b, C.Avoids (.stopUpload b))
    (hcs : ∀ b k, C.strEncode S.defaultCharset b = .ok k → k = b) :
    ∀ (fuel : Nat) (s : LazyStream (ChunkIter ρ)) (st : PState σ F), L.Inv s.producer →
    Strong s.history s.leftover.length → s.length = none →
    (st.numBytes : Int) ≤ n → SizeExact st → ∀ {r s' st'},
    partsLoop C { S with dataMaxMemory := none } H fuel64 sep fuel s st = (r, s', st') →
    (r = .ok () ∨ ∃ b, r = .error (.stopUpload b)) →
    (((st'.numBytes : Int) ≤ n ∧
      partsLoop C { S with dataMaxMemory := some n } H fuel64 sep fuel s st = (r, s', st')) ∨
    (n < st'.numBytes ∧ ∃ s'' st'', partsLoop C { S with dataMaxMemory := some n } H fuel64 sep fuel s st =
      (.error .requestDataTooBig, s'', st'')) ∨
    (n < st'.numBytes ∧ (∃ p ∈ items st'.post, p.2.transferEncoding = b!"base64") ∧
      ∃ s'' st'', partsLoop C { S with dataMaxMemory := some n } H fuel64 sep fuel s st =
        (.error .typeError, s'', st''))) := by
  intro fuel
  induction fuel with
  | zero =>
    intro s st _ _ _ hn hex r s' st' h hr
    simp only [partsLoop, Prod.mk.injEq] at h
    rcases hr with rfl | ⟨b, rfl⟩ <;> simp at h
  | succ fuel ih =>
    intro s st hI hH hl hn hex r s' st' h hr
    unfold partsLoop at h ⊢
    rcases nextPart_spec L ChunkIter.nonEmpty hsep s hI hH hl with
      ⟨s1, e, _⟩ | ⟨b, e, b1, b2, b3, b4⟩
    · rw [e] at h ⊢
      simp only [Prod.mk.injEq] at h ⊢
      obtain ⟨rfl, rfl, rfl⟩ := h
      exact .inl ⟨hn, rfl, rfl, rfl⟩
    · rw [e] at h ⊢
      simp only at h ⊢
      rcases parseBoundaryStream_spec L C ChunkIter.nonEmpty hsep (L.sc s) s.size b1 b b2 b3 b4 with
        ⟨_, s1, a1, _⟩ | ⟨t, md, content, sub1, a1, a2, a3, _⟩
      · rw [a1] at h ⊢
        simp only [Prod.mk.injEq] at h ⊢
        obtain ⟨rfl, rfl, rfl⟩ := h
        exact .inl ⟨hn, rfl, rfl, rfl⟩
      · rw [a1] at h ⊢
        simp only at h ⊢
        obtain ⟨bb, r1, sub2, st2, c1, c2, c3, _⟩ :=
          handlePart_spec C { S with dataMaxMemory := none } H fuel64 t md sub1 st a3 (partHead_raw a2)
        rw [c1] at h
        obtain ⟨g1, g2, _, _, _, g6, _⟩ := lawful_progress L ChunkIter.nonEmpty hsep _ _ b1 _ c2
        have hr1 : r1 = .ok () ∨ ∃ b, r1 = .error (.stopUpload b) := by
          rcases r1 with e | _
          · simp only [Prod.mk.injEq] at h
            obtain ⟨rfl, _⟩ := h
            exact hr
          · exact .inl rfl
        have hgr := c3.grows (S := { S with dataMaxMemory := none }) hC (.ofId hcs) hr1
        have hmo := hgr.mono
        have hex2 := hgr.exact hcs hex
        rcases handlePart_mem C S H fuel64 n t md sub1 st a3 hC (.ofId hcs) hn c1 hr1 with
          ⟨d1, d2⟩ | ⟨d1, s'', st'', d2⟩ | ⟨d1, ⟨p, hp, hp'⟩, s'', st'', d2⟩
        · rw [d2]
          rcases r1 with e | _
          · simp only [Prod.mk.injEq] at h ⊢
            obtain ⟨rfl, rfl, rfl⟩ := h
            exact .inl ⟨d1, rfl, rfl, rfl⟩
          · simp only at h ⊢
            exact ih _ _ g1 g2 g6 d1 hex2 h hr
        all_goals
          rw [d2]
          rcases r1 with e | _
          · simp only [Prod.mk.injEq] at h
            obtain ⟨rfl, rfl, rfl⟩ := h
            refine .inr ?_
            first
              | exact .inl ⟨d1, _, _, rfl⟩
              | exact .inr ⟨d1, ⟨p, hp, hp'⟩, _, _, rfl⟩
          · simp only at h
            obtain ⟨i1, i2, i3⟩ := partsLoop_grows L C { S with dataMaxMemory := none } H fuel64 hsep hC hcs _ _ _
              g1 g2 g6 hex2 h hr
            refine .inr ?_
            first
              | exact .inl ⟨by omega, _, _, rfl⟩
              | exact .inr ⟨by omega, ⟨p, i3 p hp, hp'⟩, _, _, rfl⟩

theorem parse_mem {L : Lawful ρ} (C : Codecs) (S : Settings) (H : HandlerOps ρ σ F) (fuel64 : Nat) (m : MultiPart)
    (hc : 1 ≤ m.chunkSize) (hl : LeavesParsing L H) (hC : ∀ b, C.Avoids (.stopUpload b))
    (hcs : ∀ b k, C.strEncode S.defaultCharset b = .ok k → k = b)
    (hign : ∀ i n1 n2 (S' : Settings) s w,
      H.rawInput i ⟨m.contentLength, m.boundary, { S' with dataMaxMemory := n1 }⟩ s w =
      H.rawInput i ⟨m.contentLength, m.boundary, { S' with dataMaxMemory := n2 }⟩ s w)
    (input : LazyStream ρ) (w : σ) (hi : SOK L input) (n : Int) (hn0 : 0 ≤ n) {post files s' w'}
    (h : m.parse C { S with dataMaxMemory := none } H fuel64 input w = (.ok (post, files), s', w')) :
    ∃ total : Nat, (NoBase64 post → ((items post).map fieldSize).sum = total) ∧
    ((total : Int) ≤ n →
      m.parse C { S with dataMaxMemory := some n } H fuel64 input w = (.ok (post, files), s', w')) ∧
    (n < total →
      (m.parse C { S with dataMaxMemory := some n } H fuel64 input w).1 = .error .requestDataTooBig ∨
      ((∃ p ∈ items post, p.2.transferEncoding = b!"base64") ∧
        (m.parse C { S with dataMaxMemory := some n } H fuel64 input w).1 = .error .typeError)) := by
  have hraw : ∀ is s w, rawInputLoop H ⟨m.contentLength, m.boundary, { S with dataMaxMemory := some n }⟩ is s w =
      rawInputLoop H ⟨m.contentLength, m.boundary, { S with dataMaxMemory := none }⟩ is s w := by
    intro is
    induction is with
    | nil => intro s w; rfl
    | cons i is ih =>
      intro s w
      unfold rawInputLoop
      rw [hign i (some n) none S s w]
      split
      · rfl
      · rfl
      · exact ih _ _
  have hqq : emptyQueryDict C { S with dataMaxMemory := some n } = emptyQueryDict C { S with dataMaxMemory := none } := rfl
  unfold MultiPart.parse at h ⊢
  by_cases h0 : m.contentLength = 0
  · rw [if_pos h0] at h ⊢
    rw [hqq]
    cases hq : emptyQueryDict C { S with dataMaxMemory := none } with
    | error e => rw [hq] at h; simp at h
    | ok u =>
      rw [hq] at h
      simp only [Prod.mk.injEq, Except.ok.injEq] at h
      obtain ⟨⟨rfl, rfl⟩, rfl, rfl⟩ := h
      exact ⟨0, fun _ => rfl, fun _ => rfl, fun h => by simp at h; omega⟩
  · rw [if_neg h0] at h ⊢
    rw [hraw, hqq]
    rcases rawInputLoop_leaves hl ⟨m.contentLength, m.boundary, { S with dataMaxMemory := none }⟩
      (List.range H.count) input w hi with ⟨e, s1, w1, a1, _⟩ | ⟨input1, w1, a1, a2, _⟩
    · rw [a1] at h; simp at h
    · rw [a1] at h ⊢
      simp only at h ⊢
      cases hq : emptyQueryDict C { S with dataMaxMemory := none } with
      | error e => rw [hq] at h; simp at h
      | ok u =>
        rw [hq] at h
        simp only at h ⊢
        rcases b1 : partsLoop C { S with dataMaxMemory := none } H fuel64 (b!"--" ++ m.boundary)
            ((LazyStream.mk' (⟨input1, m.chunkSize⟩ : ChunkIter ρ)).size + 1)
            (LazyStream.mk' ⟨input1, m.chunkSize⟩) (PState.start H w1) with ⟨r, s2, st2⟩
        have hr : r = .ok () ∨ ∃ b, r = .error (.stopUpload b) := by
          unfold PState.start at b1
          rw [b1] at h
          rcases r with e | u
          · right
            cases e <;> first | (simp at h; done) | exact ⟨_, rfl⟩
          · exact .inl rfl
        have hst : SizeExact (PState.start H w1) := fun _ => rfl
        have hlim := partsLoop_mem (ChunkIter.lawful L) C S H fuel64 n (SepOK.dashes m.boundary) hC hcs _ _ _
          ⟨a2.inv, hc, a2.hist⟩ (strong_nil_mk _) rfl (by simpa [PState.start] using hn0) hst b1 hr
        obtain ⟨hex, _, _⟩ := partsLoop_grows (ChunkIter.lawful L) C { S with dataMaxMemory := none } H fuel64
          (SepOK.dashes m.boundary) hC hcs _ _ _ ⟨a2.inv, hc, a2.hist⟩ (strong_nil_mk _) rfl hst b1 hr
        unfold PState.start at b1 hlim
        rw [b1] at h
        have hpost : post = st2.post := by
          rcases hr with rfl | ⟨b, rfl⟩
          · simp only at h
            split at h
            · simp at h
            · unfold finishParse at h; split at h
              · simp at h
              · simp only [Prod.mk.injEq, Except.ok.injEq] at h; exact h.1.1.symm
          · simp only at h
            split at h
            · simp at h
            · split at h
              · unfold finishParse at h; split at h
                · simp at h
                · simp only [Prod.mk.injEq, Except.ok.injEq] at h; exact h.1.1.symm
              · split at h
                · simp at h
                · unfold finishParse at h; split at h
                  · simp at h
                  · simp only [Prod.mk.injEq, Except.ok.injEq] at h; exact h.1.1.symm
        subst hpost
        refine ⟨st2.numBytes, hex, ?_, ?_⟩
        · intro hle
          rcases hlim with ⟨c1, c2⟩ | ⟨c1, _⟩ | ⟨c1, _⟩
          · rw [c2]; exact h
          · omega
          · omega
        · intro hlt
          rcases hlim with ⟨c1, c2⟩ | ⟨c1, s3, st3, c2⟩ | ⟨c1, c3, s3, st3, c2⟩
          · omega
          · left; rw [c2]
          · right; rw [c2]; exact ⟨c3, rfl⟩

end
end Verif
