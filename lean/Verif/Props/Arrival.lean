import Verif.Proofs.Arrival
import Verif.Props.Load
/-!
# The result does not depend on how the request arrives (C98)
-/

namespace Verif
namespace Spec
variable {ρ σ F : Type} [Producer ρ]

/-- Two streams in good order with the same remaining bytes (`k`: how many unread pieces they remember). -/
structure SameRest (L : Lawful ρ) (k : Nat) (s t : LazyStream ρ) : Prop where
  left : SK L k s
  right : SK L k t
  rest : L.sc s = L.sc t

/-- An upload handler whose `handle_raw_input` cannot tell apart streams with the same remaining bytes (for
instance because it reads whole blocks, or nothing at all). -/
def Oblivious (L : Lawful ρ) (H : HandlerOps ρ σ F) : Prop :=
  ∀ i a s t w, SameRest L 39 s t → ∃ x s' t' w', H.rawInput i a s w = (x, s', w') ∧ H.rawInput i a t w = (x, t', w') ∧
    SameRest L 39 s' t'

end Spec

open Spec
section
variable {ρ σ F : Type} [Producer ρ] {L : Lawful ρ} {k : Nat}

theorem Spec.SameRest.mono {k' : Nat} {s t : LazyStream ρ} (h : SameRest L k s t) (hk : k ≤ k') : SameRest L k' s t :=
  ⟨h.left.mono hk, h.right.mono hk, h.rest⟩

theorem Spec.SameRest.read {s t : LazyStream ρ} (h : SameRest L k s t) (hk : k ≤ 39) (n : Nat) :
    ∃ d s' t', s.read (some n) = (.ok d, s') ∧ t.read (some n) = (.ok d, t') ∧ SameRest L k s' t' ∧
      s'.size + d.length ≤ s.size ∧ t'.size + d.length ≤ t.size := by
  obtain ⟨s', a1, a2, a3, a4⟩ := h.left.read hk n
  obtain ⟨t', b1, b2, b3, b4⟩ := h.right.read hk n
  rw [← h.rest] at b1 b3 b4
  exact ⟨_, s', t', a1, b1, ⟨a2, b2, by rw [a3, b3]⟩, by rw [List.length_take]; omega, by rw [List.length_take]; omega⟩

theorem Spec.SameRest.unget {s t : LazyStream ρ} (h : SameRest L k s t) (hk : k ≤ 37) (b : Bytes) :
    ∃ s' t', s.unget b = (.ok (), s') ∧ t.unget b = (.ok (), t') ∧ SameRest L (k + 2) s' t' := by
  obtain ⟨s', a1, a2, a3⟩ := h.left.unget (by omega) b
  obtain ⟨t', b1, b2, b3⟩ := h.right.unget (by omega) b
  exact ⟨s', t', a1, b1, a2, b2, by rw [a3, b3, h.rest]⟩

theorem SK.toEnd : ∀ (f : Nat) {s : LazyStream ρ}, SK L 39 s → s.size < f →
    ∃ s', exhaustLoop f s = (.ok (), s') ∧ SK L 39 s' ∧ L.sc s' = [] := by
  intro f
  induction f with
  | zero => intro s _ h; omega
  | succ f ih =>
    intro s h hf
    unfold exhaustLoop
    rcases SOK.next ⟨h.inv, h.hist, h.len⟩ with ⟨s1, e, a1, -, -, a2⟩ | ⟨c, s1, e, a1, a2, a3⟩
    · rw [e]; exact ⟨s1, rfl, ⟨a1.inv, a1.hist, a1.len⟩, a2⟩
    · rw [e]; exact ih ⟨a1.inv, a1.hist, a1.len⟩ (by omega)

theorem Spec.SameRest.exhaust {s t : LazyStream ρ} (h : SameRest L 39 s t) :
    ∃ s' t', Verif.exhaust s = (.ok (), s') ∧ Verif.exhaust t = (.ok (), t') ∧ SameRest L 39 s' t' := by
  obtain ⟨s', a1, a2, a3⟩ := h.left.toEnd (s.size + 1) (by omega)
  obtain ⟨t', b1, b2, b3⟩ := h.right.toEnd (t.size + 1) (by omega)
  exact ⟨s', t', a1, b1, a2, b2, by rw [a3, b3]⟩

/-- Chunk iterators over streams with the same remaining bytes. -/
structure SameChunks (L : Lawful ρ) (c d : ChunkIter ρ) : Prop where
  flo : SameRest L 39 c.flo d.flo
  size : c.chunkSize = d.chunkSize
  pos : 1 ≤ c.chunkSize

theorem SameChunks.sim (L : Lawful ρ) : Sim (SameChunks L) where
  next c d h := by
    obtain ⟨x, s', t', e1, e2, a1, a2, a3⟩ := h.flo.read (Nat.le_refl _) c.chunkSize
    have hsz : ∀ c : ChunkIter ρ, Producer.size c = c.flo.size := fun _ => rfl
    refine ⟨.ok (if x ≠ [] then some x else none), { c with flo := s' }, { d with flo := t' }, ?_, ?_,
      ⟨a1, h.size, h.pos⟩, ?_, ?_⟩
    · change ChunkIter.next c = _
      simp only [ChunkIter.next, e1]
    · change ChunkIter.next d = _
      simp only [ChunkIter.next, ← h.size, e2]
    · rw [hsz, hsz]
      refine ⟨by simp only; omega, fun y hy => ?_⟩
      by_cases hx : x = []
      · simp [hx] at hy
      · have := List.length_pos_iff.2 hx
        simp only [ne_eq, hx, not_false_eq_true, if_true, Except.ok.injEq, Option.some.injEq] at hy
        subst hy
        simp only
        omega
    · rw [hsz, hsz]
      refine ⟨by simp only; omega, fun y hy => ?_⟩
      by_cases hx : x = []
      · simp [hx] at hy
      · have := List.length_pos_iff.2 hx
        simp only [ne_eq, hx, not_false_eq_true, if_true, Except.ok.injEq, Option.some.injEq] at hy
        subst hy
        simp only
        omega

/-! ### Multipart bodies -/

theorem Spec.Oblivious.loop {H : HandlerOps ρ σ F} (hH : Oblivious L H) (a : RawArgs) (is : List Nat) :
    ∀ {s t : LazyStream ρ} (w : σ), SameRest L 39 s t →
    ∃ x s' t' w', rawInputLoop H a is s w = (x, s', w') ∧ rawInputLoop H a is t w = (x, t', w') ∧ SameRest L 39 s' t' := by
  induction is with
  | nil => intro s t w h; exact ⟨_, _, _, _, rfl, rfl, h⟩
  | cons i is ih =>
    intro s t w h
    unfold rawInputLoop
    obtain ⟨x, s1, t1, w1, e1, e2, a1⟩ := hH i a s t w h
    rw [e1, e2]
    match x with
    | .error e => exact ⟨_, _, _, _, rfl, rfl, a1⟩
    | .ok (some r) => exact ⟨_, _, _, _, rfl, rfl, a1⟩
    | .ok none => exact ih w1 a1

theorem finishParse_sim (H : HandlerOps ρ σ F) {s t : LazyStream ρ} (h : SameRest L 39 s t) (st : PState σ F) :
    ∃ x s' t' w', finishParse H s st = (x, s', w') ∧ finishParse H t st = (x, t', w') ∧ SameRest L 39 s' t' := by
  unfold finishParse
  rcases uploadCompleteLoop H (List.range H.count) st.world with ⟨_ | _, w⟩
  · exact ⟨_, _, _, _, rfl, rfl, h⟩
  · exact ⟨_, _, _, _, rfl, rfl, h⟩

/-- Multipart bodies, well-formed or not. -/
theorem parse_sim (C : Codecs) (S : Settings) {H : HandlerOps ρ σ F} (hH : Oblivious L H) (fuel64 : Nat) (m : MultiPart)
    (hm : 1 ≤ m.chunkSize) {s t : LazyStream ρ} (h : SameRest L 39 s t) (w : σ) :
    ∃ x s' t' w', m.parse C S H fuel64 s w = (x, s', w') ∧ m.parse C S H fuel64 t w = (x, t', w') ∧ SameRest L 39 s' t' := by
  unfold MultiPart.parse
  split
  · cases emptyQueryDict C S with
    | error e => exact ⟨_, _, _, _, rfl, rfl, h⟩
    | ok u => exact ⟨_, _, _, _, rfl, rfl, h⟩
  obtain ⟨x, s1, t1, w1, e1, e2, a1⟩ := hH.loop ⟨m.contentLength, m.boundary, S⟩ (List.range H.count) w h
  rw [e1, e2]
  match x with
  | .error e => exact ⟨_, _, _, _, rfl, rfl, a1⟩
  | .ok (some r) => exact ⟨_, _, _, _, rfl, rfl, a1⟩
  | .ok none =>
    simp only
    cases emptyQueryDict C S with
    | error e => exact ⟨_, _, _, _, rfl, rfl, a1⟩
    | ok u =>
      simp only
      have hb : LS (SameChunks L) (LazyStream.mk' ⟨s1, m.chunkSize⟩) (LazyStream.mk' ⟨t1, m.chunkSize⟩) :=
        ⟨⟨a1, rfl, hm⟩, rfl, rfl, rfl, rfl⟩
      obtain ⟨x, s2, t2, st, e1, e2, b1⟩ := hb.partsLoop (SameChunks.sim L) C S H fuel64 (sep := b!"--" ++ m.boundary)
        (by simp) (LazyStream.size (LazyStream.mk' (⟨s1, m.chunkSize⟩ : ChunkIter ρ)) + 1)
        (LazyStream.size (LazyStream.mk' (⟨t1, m.chunkSize⟩ : ChunkIter ρ)) + 1)
        { world := w1, counters := List.replicate H.count 0 } (by omega) (by omega)
      rw [e1, e2]
      obtain ⟨s3, t3, f1, f2, c1⟩ := b1.prod.flo.exhaust
      match x with
      | .ok () =>
        simp only [f1, f2]
        exact finishParse_sim H c1 st
      | .error e =>
        by_cases he : ∃ r, e = .stopUpload r
        · obtain ⟨r, rfl⟩ := he
          simp only
          rcases closeFiles H (List.range H.count) st.world with ⟨_ | _, w2⟩
          · exact ⟨_, _, _, _, rfl, rfl, b1.prod.flo⟩
          · simp only
            split
            · exact finishParse_sim H b1.prod.flo _
            · simp only [f1, f2]
              exact finishParse_sim H c1 _
        · refine ⟨.error e, s2.producer.flo, t2.producer.flo, st.world, ?_, ?_, b1.prod.flo⟩ <;>
          · split
            · rename_i h; cases h
            · rename_i h; cases h; exact absurd ⟨_, rfl⟩ he
            · rename_i h; cases h; rfl

/-- As `parse_sim`, for a boundary that is a `unicode` object. -/
theorem parseText_sim (C : Codecs) (S : Settings) {H : HandlerOps ρ σ F} (hH : Oblivious L H) (fuel64 : Nat) (m : MultiPart)
    (hm : 1 ≤ m.chunkSize) {s t : LazyStream ρ} (h : SameRest L 39 s t) (w : σ) :
    ∃ x s' t' w', m.parseText C S H fuel64 s w = (x, s', w') ∧ m.parseText C S H fuel64 t w = (x, t', w') ∧ SameRest L 39 s' t' := by
  unfold MultiPart.parseText
  split
  · cases emptyQueryDict C S with
    | error e => exact ⟨_, _, _, _, rfl, rfl, h⟩
    | ok u => exact ⟨_, _, _, _, rfl, rfl, h⟩
  obtain ⟨x, s1, t1, w1, e1, e2, a1⟩ := hH.loop ⟨m.contentLength, m.boundary, S⟩ (List.range H.count) w h
  rw [e1, e2]
  match x with
  | .error e => exact ⟨_, _, _, _, rfl, rfl, a1⟩
  | .ok (some r) => exact ⟨_, _, _, _, rfl, rfl, a1⟩
  | .ok none =>
    simp only
    cases emptyQueryDict C S with
    | error e => exact ⟨_, _, _, _, rfl, rfl, a1⟩
    | ok u =>
      simp only
      have hb : LS (SameChunks L) (LazyStream.mk' ⟨s1, m.chunkSize⟩) (LazyStream.mk' ⟨t1, m.chunkSize⟩) :=
        ⟨⟨a1, rfl, hm⟩, rfl, rfl, rfl, rfl⟩
      obtain ⟨x, s2, t2, st, e1, e2, b1⟩ := hb.textPartsLoop (SameChunks.sim L) C S H fuel64 (sep := b!"--" ++ m.boundary)
        (by simp) (LazyStream.size (LazyStream.mk' (⟨s1, m.chunkSize⟩ : ChunkIter ρ)) + 1)
        (LazyStream.size (LazyStream.mk' (⟨t1, m.chunkSize⟩ : ChunkIter ρ)) + 1)
        { world := w1, counters := List.replicate H.count 0 } (by omega) (by omega)
      rw [e1, e2]
      obtain ⟨s3, t3, f1, f2, c1⟩ := b1.prod.flo.exhaust
      match x with
      | .ok () =>
        simp only [f1, f2]
        exact finishParse_sim H c1 st
      | .error e =>
        by_cases he : ∃ r, e = .stopUpload r
        · obtain ⟨r, rfl⟩ := he
          simp only
          rcases closeFiles H (List.range H.count) st.world with ⟨_ | _, w2⟩
          · exact ⟨_, _, _, _, rfl, rfl, b1.prod.flo⟩
          · simp only
            split
            · exact finishParse_sim H b1.prod.flo _
            · simp only [f1, f2]
              exact finishParse_sim H c1 _
        · refine ⟨.error e, s2.producer.flo, t2.producer.flo, st.world, ?_, ?_, b1.prod.flo⟩ <;>
          · split
            · rename_i h; cases h
            · rename_i h; cases h; exact absurd ⟨_, rfl⟩ he
            · rename_i h; cases h; rfl

theorem run_sim (C : Codecs) (S : Settings) {H : HandlerOps ρ σ F} (hH : Oblivious L H) (fuel64 : Nat) (text : Bool)
    (m : MultiPart) (hm : 1 ≤ m.chunkSize) {s t : LazyStream ρ} (h : SameRest L 39 s t) (w : σ) :
    ∃ x s' t' w', m.run C S H fuel64 text s w = (x, s', w') ∧ m.run C S H fuel64 text t w = (x, t', w') ∧
      SameRest L 39 s' t' := by
  cases text with
  | false => exact parse_sim C S hH fuel64 m hm h w
  | true => exact parseText_sim C S hH fuel64 m hm h w

/-! ### The request -/

theorem headerLoop_sim (hk : k ≤ 39) (n : Int) : ∀ (f g : Nat) (acc : Bytes) (st : Bool) {s t : LazyStream ρ},
    SameRest L k s t → s.size < f → t.size < g →
    ∃ x s' t' st', headerLoop n f acc st s = (x, s', st') ∧ headerLoop n g acc st t = (x, t', st') ∧ SameRest L k s' t' := by
  intro f
  induction f with
  | zero => intro g acc st s t _ h; omega
  | succ f ih =>
    intro g acc st s t h hf hg
    match g, hg with
    | 0, hg => omega
    | g + 1, hg =>
    unfold headerLoop
    by_cases hn : n < 0
    · have : ∀ s : LazyStream ρ, s.read (some n) = (.error .assertionError, s) := by
        intro s; simp only [LazyStream.read]; rw [if_pos hn]
      rw [this, this]
      exact ⟨_, _, _, _, rfl, rfl, h⟩
    · obtain ⟨m, rfl⟩ : ∃ m : Nat, n = m := ⟨n.toNat, by omega⟩
      obtain ⟨d, s1, t1, e1, e2, a1, a2, a3⟩ := h.read hk m
      rw [e1, e2]
      simp only
      by_cases hd : d = []
      · rw [if_pos hd, if_pos hd]; exact ⟨_, _, _, _, rfl, rfl, a1⟩
      · rw [if_neg hd, if_neg hd]
        have := List.length_pos_iff.2 hd
        cases Py.find b!"\r\n\r\n" (acc ++ d) with
        | some i => exact ⟨_, _, _, _, rfl, rfl, a1⟩
        | none => exact ih g (acc ++ d) true a1 (by omega) (by omega)

theorem bodyLoop_sim (limit : Option Int) : ∀ (f g : Nat) (acc chunk : Bytes) (n : Nat) {s t : LazyStream ρ},
    SameRest L 39 s t → (chunk ≠ [] → s.size + 1 < f ∧ t.size + 1 < g) → 0 < f → 0 < g →
    ∃ x s' t', bodyLoop limit f acc chunk n s = (x, s') ∧ bodyLoop limit g acc chunk n t = (x, t') ∧ SameRest L 39 s' t' := by
  intro f
  induction f with
  | zero => intro g acc chunk n s t _ _ h; omega
  | succ f ih =>
    intro g acc chunk n s t h hf _ hg
    match g, hg with
    | 0, hg => omega
    | g + 1, _ =>
    unfold bodyLoop
    split
    · rename_i hc
      obtain ⟨h1, h2⟩ := hf hc.2
      obtain ⟨d, s1, t1, e1, e2, a1, a2, a3⟩ := h.read (Nat.le_refl _) 65536
      have e1' : s.read (some 65536) = (.ok d, s1) := e1
      have e2' : t.read (some 65536) = (.ok d, t1) := e2
      rw [e1', e2']
      simp only
      refine ih g (acc ++ chunk) d (n + d.length) a1 (fun hd => ?_) (by omega) (by omega)
      have := List.length_pos_iff.2 hd
      omega
    · split <;> exact ⟨_, _, _, rfl, rfl, h⟩

theorem readBody_sim (S : Settings) (r : Req ρ σ F) (t : LazyStream ρ) (h : SameRest L 39 r.stream t) :
    ∃ x r' t', readBody S r = (x, r') ∧ readBody S (r.withStream t) = (x, r'.withStream t') ∧ SameRest L 39 r'.stream t' := by
  unfold readBody
  obtain ⟨d, s1, t1, e1, e2, a1, a2, a3⟩ := h.read (Nat.le_refl _) 65536
  have e1' : r.stream.read (some 65536) = (.ok d, s1) := e1
  have e2' : (r.withStream t).stream.read (some 65536) = (.ok d, t1) := e2
  rw [e1', e2']
  simp only
  obtain ⟨x, s2, t2, e1, e2, b1⟩ := bodyLoop_sim (L := L) S.dataMaxMemory (s1.size + 2) (t1.size + 2) [] d d.length a1
    (fun _ => ⟨by omega, by omega⟩) (by omega) (by omega)
  rw [e1, e2]
  match x with
  | .error e => exact ⟨_, _, t2, rfl, rfl, b1⟩
  | .ok b => exact ⟨_, _, t2, rfl, rfl, b1⟩

theorem bodyCore_sim (S : Settings) (r : Req ρ σ F) (t : LazyStream ρ) (h : SameRest L 39 r.stream t) :
    ∃ x r' t', bodyCore S r = (x, r') ∧ bodyCore S (r.withStream t) = (x, r'.withStream t') ∧ SameRest L 39 r'.stream t' := by
  unfold bodyCore
  have e1 : (r.withStream t).bodyParsed = r.bodyParsed := rfl
  have e2 : (r.withStream t).contentType = r.contentType := rfl
  have e3 : (r.withStream t).body_ = r.body_ := rfl
  rw [e1, e2, e3]
  split
  · exact ⟨_, _, t, rfl, rfl, h⟩
  · split
    · exact ⟨_, _, t, rfl, rfl, h⟩
    · cases r.body_ with
      | none => exact readBody_sim S r t h
      | some b => exact ⟨_, _, t, rfl, rfl, h⟩

theorem parseRequestHeader_sim (hk : k ≤ 37) (E : Env ρ σ F) (S : Settings) (r : Req ρ σ F) (t : LazyStream ρ)
    (h : SameRest L k r.stream t) :
    ∃ x S' r' t', parseRequestHeader E S r = (x, S', r') ∧
      parseRequestHeader E S (r.withStream t) = (x, S', r'.withStream t') ∧ SameRest L (k + 2) r'.stream t' := by
  unfold parseRequestHeader
  have e0 : (r.withStream t).headerParsed = r.headerParsed := rfl
  rw [e0]
  split
  · exact ⟨_, _, _, t, rfl, rfl, h.mono (by omega)⟩
  obtain ⟨x, s1, t1, st, e1, e2, a1⟩ := headerLoop_sim (L := L) (k := k) (by omega) S.maxHeaderSize (r.stream.size + 2)
    ((r.withStream t).stream.size + 2) [] false h (by omega) (by change t.size < t.size + 2; omega)
  have e2' : headerLoop S.maxHeaderSize ((r.withStream t).stream.size + 2) [] false (r.withStream t).stream = (x, t1, st) := e2
  rw [e1, e2']
  match x with
  | .error e => exact ⟨_, _, _, t1, rfl, rfl, a1.mono (by omega)⟩
  | .ok (header, rest) =>
    simp only
    obtain ⟨s2, t2, e1, e2, b1⟩ := a1.unget hk rest
    rw [e1, e2]
    simp only
    have := applyHeader_overS E header S { r with stream := s2, headerParsed := true } t2
    have hfr := (applyHeader_frame E header S { r with stream := s2, headerParsed := true }).1.stream
    refine ⟨(applyHeader E header S { r with stream := s2, headerParsed := true }).1,
      (applyHeader E header S { r with stream := s2, headerParsed := true }).2.1,
      (applyHeader E header S { r with stream := s2, headerParsed := true }).2.2, t2, rfl, this, ?_⟩
    rw [hfr]
    exact b1

theorem markError_sim (C : Codecs) (S : Settings) (e : Exc) (r : Req ρ σ F) (t : LazyStream ρ) :
    markError C S e (r.withStream t) = ((markError C S e r).1.withStream t, (markError C S e r).2) ∧
    (markError C S e r).1.stream = r.stream := by
  unfold markError
  cases queryDict C S none false with
  | error e => exact ⟨rfl, rfl⟩
  | ok q => exact ⟨rfl, rfl⟩

/-- The handlers the environment can load are all oblivious. -/
def ObliviousEnv (L : Lawful ρ) (E : Env ρ σ F) : Prop := ∀ w H w', E.load w = (.ok H, w') → Oblivious L H

theorem parseFileUpload_sim {E : Env ρ σ F} (hE : ObliviousEnv L E) (S : Settings) {H : HandlerOps ρ σ F} (hH : Oblivious L H)
    (r : Req ρ σ F) (t : LazyStream ρ) (h : SameRest L 39 r.stream t) (w : σ) :
    ∃ x r' t' w', parseFileUpload E S H r w = (x, r', w') ∧ parseFileUpload E S H (r.withStream t) w = (x, r'.withStream t', w') ∧
      SameRest L 39 r'.stream t' := by
  unfold parseFileUpload
  have e0 : (r.withStream t).info = r.info := rfl
  rw [e0]
  cases r.info.bind (·.headers) with
  | none => exact ⟨_, _, t, _, rfl, rfl, h⟩
  | some hd =>
    simp only
    have hl : ∀ H' w', (if H.count = 0 then E.load w else (.ok H, w)) = (.ok H', w') → Oblivious L H' := by
      intro H' w' he
      split at he
      · exact hE _ _ _ he
      · cases he; exact hH
    match hload : (if H.count = 0 then E.load w else (.ok H, w)) with
    | (.error e, w1) => exact ⟨_, _, t, _, rfl, rfl, h⟩
    | (.ok H1, w1) =>
      have hH1 := hl H1 w1 hload
      simp only
      cases hcr : MultiPart.create E.C H1 ((hd.get? b!"Content-Type").bind List.getLast?)
          ((hd.get? b!"Content-Length").bind List.getLast?) with
      | error e => exact ⟨_, _, t, _, rfl, rfl, h⟩
      | ok m =>
        simp only
        have hm := (C33_chunk_size E.C H1 _ _ m hcr).2.1
        obtain ⟨x, s1, t1, w2, e1, e2, a1⟩ := run_sim E.C S hH1 E.fuel64
          (unicodeBoundary E.C ((hd.get? b!"Content-Type").bind List.getLast?)) m hm h w1
        have e2' : m.run E.C S H1 E.fuel64 (unicodeBoundary E.C ((hd.get? b!"Content-Type").bind List.getLast?))
          (r.withStream t).stream w1 = (x, t1, w2) := e2
        rw [e1]
        simp only [Req.withStream] at e2' ⊢
        rw [e2']
        exact ⟨_, _, t1, _, rfl, rfl, a1⟩

theorem parseByType_sim {E : Env ρ σ F} (hE : ObliviousEnv L E) (S : Settings) {H : HandlerOps ρ σ F} (hH : Oblivious L H)
    (r : Req ρ σ F) (t : LazyStream ρ) (h : SameRest L 39 r.stream t) (w : σ) :
    ∃ x r' t' w', parseByType E S H r w = (x, r', w') ∧ parseByType E S H (r.withStream t) w = (x, r'.withStream t', w') ∧
      SameRest L 39 r'.stream t' := by
  unfold parseByType
  have e0 : (r.withStream t).contentType = r.contentType := rfl
  rw [e0]
  cases r.contentType with
  | none => exact ⟨_, _, t, _, rfl, rfl, h⟩
  | some ct =>
    simp only
    split
    · obtain ⟨x, r1, t1, w1, e1, e2, a1⟩ := parseFileUpload_sim hE S hH r t h w
      rw [e1, e2]
      match x with
      | .ok (p, f) => exact ⟨_, _, t1, _, rfl, rfl, a1⟩
      | .error e =>
        by_cases he : e = .multiPartParserError
        · subst he
          simp only
          obtain ⟨m1, m2⟩ := markError_sim E.C S .multiPartParserError r1 t1
          rw [m1]
          refine ⟨_, (markError E.C S .multiPartParserError r1).1, t1, w1, rfl, rfl, ?_⟩
          rw [m2]; exact a1
        · refine ⟨.error e, r1, t1, w1, ?_, ?_, a1⟩ <;>
          · split
            · rename_i h; cases h; contradiction
            · rename_i h; cases h; rfl
            · rename_i h; cases h
    · split
      · obtain ⟨x, r1, t1, e1, e2, a1⟩ := bodyCore_sim (L := L) S r t h
        rw [e1, e2]
        match x with
        | .error e => exact ⟨_, _, t1, _, rfl, rfl, a1⟩
        | .ok b =>
          simp only
          cases queryDict E.C S (some b) false with
          | error e => exact ⟨_, _, t1, _, rfl, rfl, a1⟩
          | ok q => exact ⟨_, _, t1, _, rfl, rfl, a1⟩
      · cases queryDict E.C S none false with
        | error e => exact ⟨_, _, t, _, rfl, rfl, h⟩
        | ok q => exact ⟨_, _, t, _, rfl, rfl, h⟩

theorem finishBody_sim (C : Codecs) (S : Settings) (r : Req ρ σ F) (t : LazyStream ρ) (h : SameRest L 39 r.stream t) :
    ∃ x r' t', finishBody C S r = (x, r') ∧ finishBody C S (r.withStream t) = (x, r'.withStream t') ∧
      SameRest L 39 r'.stream t' := by
  unfold finishBody
  obtain ⟨x, r1, t1, e1, e2, a1⟩ := bodyCore_sim (L := L) S r t h
  rw [e1, e2]
  match x with
  | .error e => exact ⟨_, _, t1, rfl, rfl, a1⟩
  | .ok b =>
    simp only
    cases decodeBody C S b with
    | error e => exact ⟨_, _, t1, rfl, rfl, a1⟩
    | ok u => exact ⟨_, _, t1, rfl, rfl, a1⟩

theorem parseBodyStream_sim (hk : k ≤ 37) {E : Env ρ σ F} (hE : ObliviousEnv L E) (S : Settings) {H : HandlerOps ρ σ F}
    (hH : Oblivious L H) (r : Req ρ σ F) (t : LazyStream ρ) (h : SameRest L k r.stream t) (w : σ) :
    ∃ x r' t' w', parseBodyStream E S H r w = (x, r', w') ∧ parseBodyStream E S H (r.withStream t) w = (x, r'.withStream t', w') ∧
      SameRest L 39 r'.stream t' := by
  unfold parseBodyStream
  obtain ⟨d, s1, t1, e1, e2, a1, -⟩ := h.read (by omega) 1
  have e1' : r.stream.read (some 1) = (.ok d, s1) := e1
  have e2' : (r.withStream t).stream.read (some 1) = (.ok d, t1) := e2
  rw [e1', e2']
  simp only
  split
  · cases queryDict E.C S none false with
    | error e => exact ⟨_, _, t1, _, rfl, rfl, a1.mono (by omega)⟩
    | ok q => exact ⟨_, _, t1, _, rfl, rfl, a1.mono (by omega)⟩
  · obtain ⟨s2, t2, e1, e2, b1⟩ := a1.unget hk d
    rw [e1, e2]
    simp only
    obtain ⟨x, r3, t3, w3, e1, e2, c1⟩ := parseByType_sim hE S hH { r with stream := s2 } t2 (b1.mono (by omega)) w
    have e2' : parseByType E S H { r.withStream t with stream := t2 } w = (x, r3.withStream t3, w3) := e2
    simp only [Req.withStream] at e2' ⊢
    rw [e1, e2']
    match x with
    | .error e => exact ⟨_, _, t3, _, rfl, rfl, c1⟩
    | .ok () =>
      simp only
      obtain ⟨x, r4, t4, e1, e2, d1⟩ := finishBody_sim (L := L) E.C S r3 t3 c1
      have e2' : finishBody E.C S { r3 with stream := t3 } = (x, r4.withStream t4) := e2
      rw [e1, e2']
      exact ⟨_, _, t4, _, rfl, rfl, d1⟩

theorem parseRequestBody_sim (hk : k ≤ 37) {E : Env ρ σ F} (hE : ObliviousEnv L E) (S : Settings) (r : Req ρ σ F)
    (t : LazyStream ρ) (h : SameRest L k r.stream t) (w : σ) :
    ∃ x r' t' w', parseRequestBody E S r w = (x, r', w') ∧ parseRequestBody E S (r.withStream t) w = (x, r'.withStream t', w') ∧
      SameRest L 39 r'.stream t' := by
  unfold parseRequestBody
  have e0 : (r.withStream t).bodyParsed = r.bodyParsed := rfl
  rw [e0]
  split
  · exact ⟨_, _, t, _, rfl, rfl, h.mono (by omega)⟩
  match hl : E.load w with
  | (.error e, w1) => exact ⟨_, _, t, _, rfl, rfl, h.mono (by omega)⟩
  | (.ok H, w1) =>
    simp only
    have e1 : (r.withStream t).headerParsed = r.headerParsed := rfl
    rw [e1]
    split
    · obtain ⟨m1, m2⟩ := markError_sim E.C S .requestHeaderParse { r with handlers := some H } t
      simp only [Req.withStream] at m1 ⊢
      rw [m1]
      refine ⟨_, (markError E.C S .requestHeaderParse { r with handlers := some H }).1, t, w1, rfl, rfl, ?_⟩
      rw [m2]; exact h.mono (by omega)
    · exact parseBodyStream_sim hk hE S (hE _ _ _ hl) { r with handlers := some H } t h w1

/-- **C98.**  Whatever the bytes of a request and in whatever state the request object is: the outcome (or the
exception), the settings, every attribute, the upload handlers and their files do not depend on the pieces in which the
bytes arrive, and neither does what is left to be read. -/
theorem C98_arrival (L : Lawful ρ) {E : Env ρ σ F} (hE : ObliviousEnv L E) (S : Settings) (r : Req ρ σ F) (p q : ρ)
    (hp : L.Inv p) (hq : L.Inv q) (hpq : L.content p = L.content q) (w : σ) :
    ∃ x S' r' t' w', parseRequest E S { r with stream := LazyStream.mk' p } w = (x, S', r', w') ∧
      parseRequest E S { r with stream := LazyStream.mk' q } w = (x, S', { r' with stream := t' }, w') ∧
      ∃ rest s'' t'', r'.stream.read none = (.ok rest, s'') ∧ t'.read none = (.ok rest, t'') := by
  have h0 : SameRest L 0 (LazyStream.mk' p) (LazyStream.mk' q) :=
    ⟨SK.fresh L p hp, SK.fresh L q hq, by simpa [Lawful.sc, LazyStream.mk'] using hpq⟩
  unfold parseRequest
  obtain ⟨x, S1, r1, t1, e1, e2, a1⟩ := parseRequestHeader_sim (by omega) E S { r with stream := LazyStream.mk' p }
    (LazyStream.mk' q) h0
  have e2' : parseRequestHeader E S { r with stream := LazyStream.mk' q } = (x, S1, r1.withStream t1) := e2
  rw [e1, e2']
  have fin : ∀ (r : Req ρ σ F) (t : LazyStream ρ) , SameRest L 39 r.stream t →
      ∃ rest s'' t'', r.stream.read none = (.ok rest, s'') ∧ t.read none = (.ok rest, t'') := by
    intro r t h
    obtain ⟨s2, b1, _⟩ := (h.left.toSOK (Nat.le_refl _)).readAll
    obtain ⟨t2, b2, _⟩ := (h.right.toSOK (Nat.le_refl _)).readAll
    exact ⟨_, s2, t2, b1, by rw [h.rest]; exact b2⟩
  match x with
  | .error e => exact ⟨_, _, _, t1, _, rfl, rfl, fin _ _ (a1.mono (by omega))⟩
  | .ok () =>
    simp only
    obtain ⟨x, r2, t2, w2, e1, e2, b1⟩ := parseRequestBody_sim (by omega) hE S1 r1 t1 a1 w
    rw [e1, e2]
    exact ⟨_, _, _, t2, _, rfl, rfl, fin _ _ b1⟩

/-- The built-in handlers do not look at the stream. -/
theorem builtin_oblivious (L : Lawful ρ) (os : Os) (n : Nat) : Oblivious L (builtinOps ρ os n) := by
  intro i a s t w h
  simp only [builtinOps]
  rcases w.on i (fun b h => (.ok (), b.rawInput a, h)) with ⟨_ | _, w1⟩
  · exact ⟨_, _, _, _, rfl, rfl, h⟩
  · exact ⟨_, _, _, _, rfl, rfl, h⟩

theorem namedEnv_oblivious (L : Lawful ρ) (C : Codecs) (up : List UStr) (os : Os) (mods : Modules (Except Exc Builtin))
    (names : List Bytes) (fuel64 : Nat) : ObliviousEnv L (namedEnv ρ C up os mods names fuel64) := by
  intro w H w' h
  simp only [namedEnv] at h
  split at h
  · cases h
  · cases h; exact builtin_oblivious L os _

end

/-- C98 for the file object of `HttpRequest` and the upload handlers of the package, whichever are named in
`FILE_UPLOAD_HANDLERS`: only the bytes count, not where the pieces (lines) end. -/
theorem C98_pieces (C : Codecs) (up : List UStr) (os : Os) (mods : Modules (Except Exc Builtin)) (names : List Bytes)
    (fuel64 : Nat) (S : Settings) (a b : List Bytes) (h : a.flatten = b.flatten) (w : BWorld) (ra rb : Req Source BWorld Uploaded)
    (ha : Req.new C S ⟨a⟩ = .ok ra) (hb : Req.new C S ⟨b⟩ = .ok rb) :
    ∃ x S' r' t' w', parseRequest (namedEnv Source C up os mods names fuel64) S ra w = (x, S', r', w') ∧
      parseRequest (namedEnv Source C up os mods names fuel64) S rb w = (x, S', { r' with stream := t' }, w') := by
  have key : rb = { ra with stream := LazyStream.mk' ⟨b⟩ } ∧ ra.stream = LazyStream.mk' ⟨a⟩ := by
    unfold Req.new Req.reInit at ha hb
    cases hq : queryDict C S none true with
    | error e => rw [hq] at ha; cases ha
    | ok q =>
      rw [hq] at ha hb
      cases ha; cases hb
      exact ⟨rfl, rfl⟩
  obtain ⟨x, S', r', t', w', e1, e2, -⟩ := C98_arrival Source.lawful
    (namedEnv_oblivious Source.lawful C up os mods names fuel64) S ra ⟨a⟩ ⟨b⟩ trivial trivial h w
  rw [← key.2] at e1
  rw [← key.1] at e2
  exact ⟨x, S', r', t', w', e1, e2⟩

/-- A multipart request that is not well-formed, in one piece and byte by byte. -/
def oddRequest : Bytes :=
  b!"POST http://h/p?q HTTP/1.1\r\nContent-Type: multipart/form-data; boundary=B\r\nContent-Length: 50\r\n\r\n" ++
  b!"--B\r\nContent-Disposition: form-data; name=\"a\"\r\n\r\nx\r\n--B\r\nno header\r\n--B--"

example (ra rb : Req Source BWorld Uploaded) (ha : Req.new pyCodecs {} ⟨[oddRequest]⟩ = .ok ra)
    (hb : Req.new pyCodecs {} ⟨oddRequest.map fun c => [c]⟩ = .ok rb) :
    ∃ x S' r' t' w', parseRequest (namedEnv Source pyCodecs [] goodOs sampleModules defaultHandlers 0) {} ra ⟨[], []⟩ =
        (x, S', r', w') ∧
      parseRequest (namedEnv Source pyCodecs [] goodOs sampleModules defaultHandlers 0) {} rb ⟨[], []⟩ =
        (x, S', { r' with stream := t' }, w') :=
  C98_pieces _ _ _ _ _ _ _ _ _ (by decide +kernel) _ _ _ ha hb

example : (Req.new (σ := BWorld) (F := Uploaded) pyCodecs {} (⟨[oddRequest]⟩ : Source)).toOption.isSome ∧
    (Req.new (σ := BWorld) (F := Uploaded) pyCodecs {} (⟨oddRequest.map fun c => [c]⟩ : Source)).toOption.isSome := by
  constructor <;> decide +kernel

end Verif
