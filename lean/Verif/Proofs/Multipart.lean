import Verif.Model.Handlers
import Verif.Proofs.Boundary
/-! `partsLoop` as a relation on byte strings: what the loop over the parts does, without streams. -/

namespace Verif
open Spec

/-- What the header of the part with bytes `P` says, and the bytes that the part's stream then
has. -/
inductive PartHead (C : Codecs) (P : Bytes) : ItemType → MetaData → Bytes → Prop where
  | noHeader : Py.find b!"\r\n\r\n" (P.take 1024) = none → PartHead C P .raw [] P
  | header {i t md} : Py.find b!"\r\n\r\n" (P.take 1024) = some i →
      partHeaders C (Py.splitPair 13 10 (P.take i)) .raw [] = .ok (t, md) → t ≠ .raw →
      PartHead C P t md (P.drop (i + 4))
  | rawHeader {i md} : Py.find b!"\r\n\r\n" (P.take 1024) = some i →
      partHeaders C (Py.splitPair 13 10 (P.take i)) .raw [] = .ok (.raw, md) →
      PartHead C P .raw md (P.take 1024 ++ P.drop (i + 4))

/-- The header of the part cannot be parsed. -/
def HeadErr (C : Codecs) (P : Bytes) (e : Exc) : Prop :=
  ∃ i, Py.find b!"\r\n\r\n" (P.take 1024) = some i ∧
    partHeaders C (Py.splitPair 13 10 (P.take i)) .raw [] = .error e

/-- A stream in good order. -/
structure SOK {τ : Type} [Producer τ] (L : Lawful τ) (s : LazyStream τ) : Prop where
  inv : L.Inv s.producer
  hist : HistOK 39 s.history s.leftover.length
  len : s.length = none

section
variable {τ : Type} [Producer τ] {L : Lawful τ}

theorem SOK.next {s : LazyStream τ} (h : SOK L s) :
    (∃ s', s.next = (.ok none, s') ∧ SOK L s' ∧ L.End s'.producer ∧ L.sc s = [] ∧ L.sc s' = []) ∨
    (∃ c s', s.next = (.ok (some c), s') ∧ SOK L s' ∧ L.sc s = c ++ L.sc s' ∧ s'.size < s.size) := by
  rcases LazyStream.next_spec L s h.inv with
      ⟨s1, e, a1, a2, a3, a4, a5, a6, a7, a8, a9, a10⟩ |
      ⟨c, s1, e, a1, a2, a3, a4, a5, a6, a7, a8⟩
  · left
    refine ⟨s1, e, ⟨a1, ?_, by rw [a9, h.len]⟩, a2, a3, a4⟩
    rw [a8, a6]; exact h.hist.mono (Nat.zero_le _)
  · right
    refine ⟨c, s1, e, ⟨a1, ?_, by rw [a6, h.len]⟩, a2, a7⟩
    rw [a3]
    rcases a5 with ⟨_, _, b3, _⟩ | ⟨_, b2, _⟩
    · rw [b3]; exact h.hist.mono (Nat.zero_le _)
    · rw [b2]; exact HistOK.nil _ _

theorem SOK.read {s : LazyStream τ} (h : SOK L s) (n : Nat) :
    ∃ s', s.read (some n) = (.ok ((L.sc s).take n), s') ∧ SOK L s' ∧ L.sc s' = (L.sc s).drop n ∧
      s'.size ≤ s.size ∧ ((L.sc s).length < n → L.End s'.producer) := by
  obtain ⟨s', a1, a2, a3, _, a5, a6, a7, a8⟩ := LazyStream.read_ok L 39 (le_refl _) n s h.inv h.hist
  exact ⟨s', a1, ⟨a2, a8, by rw [a5, h.len]⟩, a3, by omega, a7⟩

theorem SOK.readAll {s : LazyStream τ} (h : SOK L s) :
    ∃ s', s.read none = (.ok (L.sc s), s') ∧ SOK L s' ∧ L.sc s' = [] ∧ L.End s'.producer := by
  obtain ⟨s', a1, a2, a3, a4, _, a6, a7, _, a9⟩ := LazyStream.readAll_spec L s h.inv h.len
  refine ⟨s', a1, ⟨a2, ?_, by rw [a6, h.len]⟩, a3, a4⟩
  rw [a7]
  rcases a9 with e | e
  · rw [e]; exact h.hist.mono (Nat.zero_le _)
  · rw [e]; exact HistOK.nil _ _

end

theorem Py.find_lt {p s : Bytes} {i : Nat} (h : Py.find p s = some i) : i + p.length ≤ s.length :=
  Py.find_bound h

/-! ### The header of a part -/

section
variable {σ : Type} [Producer σ] (L : Lawful σ)

theorem parseBoundaryStream_spec (C : Codecs) (ne : NonEmptyChunks σ) {sep : Bytes} (hs : SepOK sep)
    (D : Bytes) (N : Nat) (hD : D ≠ []) (b : BoundaryIter σ)
    (hb : (BoundaryIter.lawful L ne hs D N true).Inv b)
    (hd : b.done = false) (hDb : L.sc b.stream = D) :
    (∃ e s', parseBoundaryStream C (LazyStream.mk' b) 1024 = (.error e, s') ∧
      HeadErr C (cut sep D) e ∧ SOK (BoundaryIter.lawful L ne hs D N false) s') ∨
    (∃ t md content s', parseBoundaryStream C (LazyStream.mk' b) 1024 = (.ok (t, md), s') ∧
      PartHead C (cut sep D) t md content ∧ SOK (BoundaryIter.lawful L ne hs D N false) s' ∧
      (BoundaryIter.lawful L ne hs D N false).sc s' = content ∧
      ((cut sep D).length < 1024 → s'.producer.done = true)) := by
  obtain ⟨s1, a1, a2, a3, a4, a5, a6⟩ :=
    firstRead_spec L ne hs D N hD b hb hd hDb 1024 (by omega)
  generalize BoundaryIter.lawful L ne hs D N false = L2 at *
  unfold parseBoundaryStream
  have a1' : (LazyStream.mk' b).read (some ((1024 : Nat) : Int)) = (.ok ((cut sep D).take 1024), s1) := a1
  rw [a1']
  generalize hP : cut sep D = P at *
  simp only
  cases hf : Py.find b!"\r\n\r\n" (P.take 1024) with
  | none =>
    right
    obtain ⟨s2, u1, u2, u3, u4, u5, u6⟩ := LazyStream.unget_ok s1 (P.take 1024) (by
      intro _
      refine (List.length_filter_le _ _).trans ?_
      simp; omega)
    simp only [u1]
    refine ⟨_, _, _, _, rfl, .noHeader hf, ⟨by rw [u2]; exact a2, ?_, by rw [u5, a5]⟩, ?_, ?_⟩
    · apply HistOK.of_length
      rw [u6]; split
      · omega
      · simp; omega
    · have : L2.sc s1 = s1.leftover ++ L2.content s1.producer := rfl
      rw [a3] at this
      simp only [Lawful.sc, u2, u3, List.append_assoc, ← this, List.take_append_drop]
    · rw [u2]; exact a6
  | some i =>
    have hi : i + 4 ≤ (P.take 1024).length := Py.find_bound hf
    have hi' : i + 4 ≤ 1024 := by simp at hi; omega
    obtain ⟨s2, u1, u2, u3, u4, u5, u6⟩ := LazyStream.unget_ok s1 ((P.take 1024).drop (i + 4)) (by
      intro _
      refine (List.length_filter_le _ _).trans ?_
      simp; omega)
    have hh2 : s2.history.length ≤ 2 := by
      rw [u6]; split
      · omega
      · simp; omega
    have hsc2 : L2.sc s2 = P.drop (i + 4) := by
      have : L2.sc s1 = s1.leftover ++ L2.content s1.producer := rfl
      rw [a3] at this
      simp only [Lawful.sc, u2, u3, List.append_assoc, ← this]
      conv_rhs => rw [← List.take_append_drop 1024 P, List.drop_append_of_le_length hi]
    have htk : (P.take 1024).take i = P.take i := by
      rw [List.take_take]; congr 1; omega
    simp only [u1, htk]
    cases hp : partHeaders C (Py.splitPair 13 10 (P.take i)) .raw [] with
    | error e =>
      left
      exact ⟨e, s2, rfl, ⟨i, hf, hp⟩, by rw [u2]; exact a2, HistOK.of_length (by omega), by rw [u5, a5]⟩
    | ok r =>
      obtain ⟨t, md⟩ := r
      right
      simp only
      by_cases ht : t = .raw
      · subst ht
        rw [if_pos rfl]
        obtain ⟨s3, v1, v2, v3, v4, v5, v6⟩ := LazyStream.unget_ok s2 (P.take 1024) (by
          intro _
          refine (List.length_filter_le _ _).trans ?_
          simp; omega)
        simp only [v1]
        refine ⟨_, _, _, _, rfl, .rawHeader hf hp, ⟨by rw [v2, u2]; exact a2, ?_, by rw [v5, u5, a5]⟩,
          ?_, ?_⟩
        · apply HistOK.of_length
          rw [v6]; split
          · omega
          · simp; omega
        · simp only [Lawful.sc, v2, v3, List.append_assoc]
          rw [← hsc2]; rfl
        · rw [v2, u2]; exact a6
      · rw [if_neg ht]
        exact ⟨_, _, _, _, rfl, .header hf hp ht, ⟨by rw [u2]; exact a2, HistOK.of_length (by omega),
          by rw [u5, a5]⟩, hsc2, by rw [u2]; exact a6⟩

end

/-! ### Relations -/

section
variable {ρ σ F : Type}

/-- The loop feeding a file to the handlers, on the bytes of the part: they are cut into pieces in
some way.  Parameters: handlers, fuel of the base64 loop, whether base64 is decoded. -/
inductive FileRun (H : HandlerOps ρ σ F) (fuel64 : Nat) (b64 : Bool) :
    Bytes → List Nat → σ → Except Exc Unit → List Nat → σ → Prop where
  | stop {cs w} : FileRun H fuel64 b64 [] cs w (.ok ()) cs w
  | step {raw rest chunk cs w cs1 w1 r cs' w'} :
      (b64 = false → chunk = raw) →
      (b64 = true → (Py.removeSpaces raw).length % 4 = 0 ∧
        Py.b64decode (Py.removeSpaces raw) = some chunk) →
      feedChunk H (List.range H.count) chunk cs w = (.ok (), cs1, w1) →
      FileRun H fuel64 b64 rest cs1 w1 r cs' w' →
      FileRun H fuel64 b64 (raw ++ rest) cs w r cs' w'
  | fail {raw rest chunk cs w e cs1 w1} :
      (b64 = false → chunk = raw) →
      (b64 = true → (Py.removeSpaces raw).length % 4 = 0 ∧
        Py.b64decode (Py.removeSpaces raw) = some chunk) →
      feedChunk H (List.range H.count) chunk cs w = (.error e, cs1, w1) →
      FileRun H fuel64 b64 (raw ++ rest) cs w (.error e) cs1 w1
  | badBase64 {raw rest cs w} : b64 = true → (Py.removeSpaces raw).length % 4 = 0 →
      Py.b64decode (Py.removeSpaces raw) = none →
      FileRun H fuel64 b64 (raw ++ rest) cs w (.error .typeError) cs w
  | spin {content cs w} : b64 = true →
      (content.length ≤ fuel64 → (Py.removeSpaces content).length % 4 ≠ 0) →
      FileRun H fuel64 b64 content cs w (.error .diverge) cs w

/-- Announcing and feeding a file. -/
inductive RecvRun (H : HandlerOps ρ σ F) (fuel64 : Nat) (args : NewFileArgs) (content : Bytes) (w : σ) :
    Except Exc Unit → List Nat → σ → Prop where
  | refused {e w1} : newFiles H args (List.range H.count) w = (.error e, w1) →
      RecvRun H fuel64 args content w (.error e) (List.replicate H.count 0) w1
  | fed {w1 r cs w2} : newFiles H args (List.range H.count) w = (.ok (), w1) →
      FileRun H fuel64 (decide (args.transferEncoding = some b!"base64")) content
        (List.replicate H.count 0) w1 r cs w2 →
      RecvRun H fuel64 args content w r cs w2

/-- What the loop body does with a part; the boolean says that the part is read to its end. -/
inductive PartRun (C : Codecs) (S : Settings) (H : HandlerOps ρ σ F) (fuel64 : Nat)
    (t : ItemType) (md : MetaData) (content : Bytes) (st : PState σ F) :
    Bool → Except Exc Unit → PState σ F → Prop where
  | completeErr {e st1} : completeOld H st = (.error e, st1) →
      PartRun C S H fuel64 t md content st false (.error e) st1
  | skip {st1} : completeOld H st = (.ok (), st1) → partName md = none →
      PartRun C S H fuel64 t md content st false (.ok ()) st1
  | nameErr {st1 d n e} : completeOld H st = (.ok (), st1) → partName md = some (d, n) →
      forceText n.strip = .error e →
      PartRun C S H fuel64 t md content st false (.error e) st1
  | tooMany {st1 d n name} : completeOld H st = (.ok (), st1) → partName md = some (d, n) →
      forceText n.strip = .ok name → t = .field →
      S.maxFields.any (· < ((st1.numKeys + 1 : Nat) : Int)) = true →
      PartRun C S H fuel64 t md content st false (.error .tooManyFieldsSent)
        { st1 with numKeys := st1.numKeys + 1 }
  | negative {st1 d n name} : completeOld H st = (.ok (), st1) → partName md = some (d, n) →
      forceText n.strip = .ok name → t = .field →
      S.dataMaxMemory.any (· < (st1.numBytes : Int)) = true →
      S.maxFields.any (· < ((st1.numKeys + 1 : Nat) : Int)) = false →
      PartRun C S H fuel64 t md content st false (.error .assertionError)
        { st1 with numKeys := st1.numKeys + 1 }
  | field {st1 d n name raw r st2} : completeOld H st = (.ok (), st1) → partName md = some (d, n) →
      forceText n.strip = .ok name → t = .field →
      S.maxFields.any (· < ((st1.numKeys + 1 : Nat) : Int)) = false →
      S.dataMaxMemory.any (· < (st1.numBytes : Int)) = false →
      raw = (match S.dataMaxMemory with
        | none => content
        | some m => content.take (m - st1.numBytes).toNat) →
      storeField C S name (transferEnc md) md raw { st1 with numKeys := st1.numKeys + 1 } = (r, st2) →
      (r = .ok () → raw = content) →
      PartRun C S H fuel64 t md content st (decide (r = .ok ())) r st2
  | fileNameErr {st1 d n name e} : completeOld H st = (.ok (), st1) → partName md = some (d, n) →
      forceText n.strip = .ok name → t = .file → dispositionFileName d = .error e →
      PartRun C S H fuel64 t md content st false (.error e) st1
  | noFileName {st1 d n name} : completeOld H st = (.ok (), st1) → partName md = some (d, n) →
      forceText n.strip = .ok name → t = .file → dispositionFileName d = .ok [] →
      PartRun C S H fuel64 t md content st false (.ok ()) st1
  | file {st1 d n name fn cs w} : completeOld H st = (.ok (), st1) → partName md = some (d, n) →
      forceText n.strip = .ok name → t = .file → dispositionFileName d = .ok fn → fn ≠ [] →
      RecvRun H fuel64 (fileArgs name fn (transferEnc md) md) content st1.world (.ok ()) cs w →
      PartRun C S H fuel64 t md content st true (.ok ())
        { st1 with world := w, counters := cs, oldField := some name }
  | fileSkip {st1 d n name fn cs w r w'} : completeOld H st = (.ok (), st1) →
      partName md = some (d, n) →
      forceText n.strip = .ok name → t = .file → dispositionFileName d = .ok fn → fn ≠ [] →
      RecvRun H fuel64 (fileArgs name fn (transferEnc md) md) content st1.world
        (.error .skipFile) cs w →
      closeFiles H (List.range H.count) w = (r, w') →
      PartRun C S H fuel64 t md content st (decide (r = .ok ())) r
        { st1 with world := w', counters := cs }
  | fileErr {st1 d n name fn e cs w} : completeOld H st = (.ok (), st1) → partName md = some (d, n) →
      forceText n.strip = .ok name → t = .file → dispositionFileName d = .ok fn → fn ≠ [] →
      RecvRun H fuel64 (fileArgs name fn (transferEnc md) md) content st1.world (.error e) cs w →
      e ≠ .skipFile →
      PartRun C S H fuel64 t md content st false (.error e)
        { st1 with world := w, counters := cs }

/-- The loop over the parts of the body `D`.  The last byte string is what is left unread of the
body at the end. -/
inductive Parses (C : Codecs) (S : Settings) (H : HandlerOps ρ σ F) (fuel64 : Nat) (sep : Bytes) :
    Bytes → PState σ F → Except Exc Unit → Bytes → PState σ F → Prop where
  | done {st} : Parses C S H fuel64 sep [] st (.ok ()) [] st
  | headErr {D D' st e} : D ≠ [] → HeadErr C (cut sep D) e → D' <:+ D →
      Parses C S H fuel64 sep D st (.error e) D' st
  | partErr {D D' st t md content b e st'} : D ≠ [] → PartHead C (cut sep D) t md content →
      PartRun C S H fuel64 t md content st b (.error e) st' → D' <:+ D →
      Parses C S H fuel64 sep D st (.error e) D' st'
  | part {D D' D'' st t md content b st' r st''} : D ≠ [] → PartHead C (cut sep D) t md content →
      PartRun C S H fuel64 t md content st b (.ok ()) st' → D' <:+ D → D'.length < D.length →
      (b = true ∨ (cut sep D).length < 1024 → D' = after sep D) →
      Parses C S H fuel64 sep D' st' r D'' st'' →
      Parses C S H fuel64 sep D st r D'' st''

end

section
variable {ρ σ F τ : Type} [Producer τ] {L : Lawful τ}

theorem fillBase64_spec : ∀ (fuel : Nat) (stripped : Bytes) (s : LazyStream τ), SOK L s →
    (∃ s' over, fillBase64 fuel stripped s = (.ok (stripped ++ Py.removeSpaces over), s') ∧
      SOK L s' ∧ L.sc s = over ++ L.sc s' ∧ s'.size ≤ s.size ∧
      (stripped ++ Py.removeSpaces over).length % 4 = 0) ∨
    (∃ s', fillBase64 fuel stripped s = (.error .diverge, s') ∧ SOK L s' ∧
      ((L.sc s).length ≤ fuel → (stripped ++ Py.removeSpaces (L.sc s)).length % 4 ≠ 0)) := by
  intro fuel
  induction fuel with
  | zero =>
    intro stripped s h
    unfold fillBase64
    split
    · left; rename_i h4; exact ⟨s, [], by simp [Py.removeSpaces], h, by simp, le_refl _, by simpa [Py.removeSpaces] using h4⟩
    · right; rename_i h4
      refine ⟨s, rfl, h, fun hl => ?_⟩
      have : L.sc s = [] := List.length_eq_zero_iff.1 (by omega)
      simpa [this, Py.removeSpaces] using h4
  | succ fuel ih =>
    intro stripped s h
    unfold fillBase64
    split
    · left; rename_i h4; exact ⟨s, [], by simp [Py.removeSpaces], h, by simp, le_refl _, by simpa [Py.removeSpaces] using h4⟩
    · rename_i h4
      obtain ⟨s1, a1, a2, a3, a4, _⟩ := h.read (4 - stripped.length % 4)
      rw [a1]
      simp only
      generalize hk : 4 - stripped.length % 4 = k at *
      have hk1 : 1 ≤ k := by omega
      have hsp : Py.removeSpaces (L.sc s) =
          Py.removeSpaces ((L.sc s).take k) ++ Py.removeSpaces ((L.sc s).drop k) := by
        rw [Py.removeSpaces, Py.removeSpaces, Py.removeSpaces, ← List.filter_append,
          List.take_append_drop]
      rcases ih (stripped ++ Py.removeSpaces ((L.sc s).take k)) s1 a2 with
        ⟨s', over, b1, b2, b3, b4, b5⟩ | ⟨s', b1, b2, b3⟩
      · left
        have hr : Py.removeSpaces ((L.sc s).take k ++ over) =
            Py.removeSpaces ((L.sc s).take k) ++ Py.removeSpaces over := by
          simp [Py.removeSpaces]
        refine ⟨s', (L.sc s).take k ++ over, ?_, b2, ?_, by omega, ?_⟩
        · rw [b1, hr]; simp
        · rw [List.append_assoc, ← b3, a3, List.take_append_drop]
        · rw [hr, ← List.append_assoc]; exact b5
      · right
        refine ⟨s', b1, b2, fun hl => ?_⟩
        rw [hsp, ← List.append_assoc, ← a3]
        by_cases he : L.sc s = []
        · apply b3; rw [a3, he]; simp
        · apply b3
          have := List.length_pos_iff.2 he
          rw [a3]; simp; omega

theorem fileLoop_spec (H : HandlerOps ρ σ F) (fuel64 : Nat) (b64 : Bool) :
    ∀ (fuel : Nat) (s : LazyStream τ) (cs : List Nat) (w : σ), SOK L s → s.size < fuel →
    ∃ r s' cs' w', fileLoop H fuel64 b64 fuel s cs w = (r, s', cs', w') ∧ SOK L s' ∧
      FileRun H fuel64 b64 (L.sc s) cs w r cs' w' ∧ (r = .ok () → L.End s'.producer) := by
  intro fuel
  induction fuel with
  | zero => intro s cs w _ h; omega
  | succ fuel ih =>
    intro s cs w h hf
    unfold fileLoop
    rcases h.next with ⟨s1, e, a1, a2, a3, a4⟩ | ⟨c, s1, e, a1, a2, a3⟩
    · rw [e]
      exact ⟨_, s1, cs, w, rfl, a1, by rw [a3]; exact .stop, fun _ => a2⟩
    · rw [e]
      simp only
      cases b64 with
      | false =>
        simp only [fileChunk, Bool.false_eq_true, if_false]
        rcases hfc : feedChunk H (List.range H.count) c cs w with ⟨(er | _), cs1, w1⟩
        · exact ⟨_, s1, cs1, w1, rfl, a1, by
            rw [a2]; exact .fail (fun _ => rfl) (by simp) hfc, by simp⟩
        · obtain ⟨r, s', cs', w', b1, b2, b3, b4⟩ := ih s1 cs1 w1 a1 (by omega)
          refine ⟨r, s', cs', w', b1, b2, ?_, b4⟩
          rw [a2]; exact .step (fun _ => rfl) (by simp) hfc b3
      | true =>
        simp only [fileChunk, if_true]
        rcases fillBase64_spec fuel64 (Py.removeSpaces c) s1 a1 with
          ⟨s2, over, b1, b2, b3, b4, b5⟩ | ⟨s2, b1, b2, b3⟩
        · rw [b1]
          simp only
          have hr : Py.removeSpaces c ++ Py.removeSpaces over = Py.removeSpaces (c ++ over) := by
            simp [Py.removeSpaces]
          rw [hr] at b5 ⊢
          have hc : L.sc s = (c ++ over) ++ L.sc s2 := by rw [a2, b3]; simp
          cases hd : Py.b64decode (Py.removeSpaces (c ++ over)) with
          | none => exact ⟨_, s2, cs, w, rfl, b2, by rw [hc]; exact .badBase64 rfl b5 hd, by simp⟩
          | some d =>
            simp only
            rcases hfc : feedChunk H (List.range H.count) d cs w with ⟨(er | _), cs1, w1⟩
            · exact ⟨_, s2, cs1, w1, rfl, b2, by
                rw [hc]; exact .fail (by simp) (fun _ => ⟨b5, hd⟩) hfc, by simp⟩
            · obtain ⟨r, s', cs', w', d1, d2, d3, d4⟩ := ih s2 cs1 w1 b2 (by omega)
              refine ⟨r, s', cs', w', d1, d2, ?_, d4⟩
              rw [hc]; exact .step (by simp) (fun _ => ⟨b5, hd⟩) hfc d3
        · rw [b1]
          refine ⟨_, s2, cs, w, rfl, b2, .spin rfl ?_, by simp⟩
          intro hl
          have := b3 (by rw [a2] at hl; simp at hl; omega)
          rw [a2]
          simpa [Py.removeSpaces] using this

theorem receiveFile_spec (H : HandlerOps ρ σ F) (fuel64 : Nat) (args : NewFileArgs)
    (s : LazyStream τ) (w : σ) (h : SOK L s) :
    ∃ r s' cs' w', receiveFile H fuel64 args s w = (r, s', cs', w') ∧ SOK L s' ∧
      RecvRun H fuel64 args (L.sc s) w r cs' w' ∧ (r = .ok () → L.End s'.producer) := by
  unfold receiveFile
  rcases hn : newFiles H args (List.range H.count) w with ⟨(e | _), w1⟩
  · exact ⟨_, s, _, w1, rfl, h, .refused hn, by simp⟩
  · obtain ⟨r, s', cs', w', b1, b2, b3, b4⟩ := fileLoop_spec H fuel64
      (decide (args.transferEncoding = some b!"base64")) (s.size + 1) s (List.replicate H.count 0)
      w1 h (by omega)
    exact ⟨r, s', cs', w', b1, b2, .fed hn b3, b4⟩

theorem storeField_ok {C : Codecs} {S : Settings} {name te md raw} {st st2 : PState σ F}
    (h : storeField C S name te md raw st = (.ok (), st2)) {m : Int}
    (hm : S.dataMaxMemory = some m) : (st.numBytes : Int) + raw.length + 2 ≤ m := by
  unfold storeField at h
  simp only at h
  split at h
  · simp at h
  · split at h
    · simp at h
    · rename_i hlt
      simp [hm] at hlt
      omega

theorem handlePart_spec (C : Codecs) (S : Settings) (H : HandlerOps ρ σ F) (fuel64 : Nat)
    (t : ItemType) (md : MetaData) (s : LazyStream τ) (st : PState σ F) (h : SOK L s)
    (hraw : t = .raw → partName md = none) :
    ∃ b r s' st', handlePart C S H fuel64 t md s st = (r, s', st') ∧ L.Inv s'.producer ∧
      PartRun C S H fuel64 t md (L.sc s) st b r st' ∧ (b = true → L.End s'.producer) ∧
      (b = false → r = .ok () → s' = s) := by
  unfold handlePart
  rcases hc : completeOld H st with ⟨(e | _), st1⟩
  · exact ⟨false, _, s, st1, rfl, h.inv, .completeErr hc, by simp, by simp⟩
  simp only
  cases hn : partName md with
  | none => exact ⟨false, _, s, st1, rfl, h.inv, .skip hc hn, by simp, by simp⟩
  | some dn =>
    obtain ⟨d, n⟩ := dn
    simp only
    cases hf : forceText n.strip with
    | error e => exact ⟨false, _, s, st1, rfl, h.inv, .nameErr hc hn hf, by simp, by simp⟩
    | ok name =>
      simp only
      cases t with
      | raw => simp [hraw rfl] at hn
      | field =>
        simp only [handleField]
        by_cases h1 : S.maxFields.any (· < ((st1.numKeys + 1 : Nat) : Int)) = true
        · rw [if_pos h1]
          exact ⟨false, _, s, _, rfl, h.inv, .tooMany hc hn hf rfl h1, by simp, by simp⟩
        · rw [if_neg h1]
          rw [Bool.not_eq_true] at h1
          by_cases h2 : S.dataMaxMemory.any (· < (st1.numBytes : Int)) = true
          · cases hm : S.dataMaxMemory with
            | none => simp [hm] at h2
            | some m =>
              have hlt : m - (st1.numBytes : Int) < 0 := by simp [hm] at h2; omega
              simp only [Option.map_some, LazyStream.read]
              rw [if_pos hlt]
              exact ⟨false, _, s, _, rfl, h.inv, .negative hc hn hf rfl h2 h1, by simp, by simp⟩
          · rw [Bool.not_eq_true] at h2
            cases hm : S.dataMaxMemory with
            | none =>
              obtain ⟨s', a1, a2, a3, a4⟩ := h.readAll
              simp only [Option.map_none, a1]
              rcases hst : storeField C S name (transferEnc md) md (L.sc s)
                { st1 with numKeys := st1.numKeys + 1 } with ⟨r, st2⟩
              exact ⟨_, r, s', st2, rfl, a2.inv,
                .field hc hn hf rfl h1 h2 (by simp [hm]) hst (fun _ => rfl), fun _ => a4,
                fun h h' => by simp [h'] at h⟩
            | some m =>
              have hle : 0 ≤ m - (st1.numBytes : Int) := by simp [hm] at h2; omega
              obtain ⟨k, hk⟩ := Int.eq_ofNat_of_zero_le hle
              obtain ⟨s', a1, a2, a3, _, a4⟩ := h.read k
              simp only [Option.map_some, hk]
              have a1' : s.read (some (k : Int)) = (.ok ((L.sc s).take k), s') := a1
              rw [a1']
              simp only
              rcases hst : storeField C S name (transferEnc md) md ((L.sc s).take k)
                { st1 with numKeys := st1.numKeys + 1 } with ⟨r, st2⟩
              have hshort : r = .ok () → (L.sc s).length < k := by
                rintro rfl
                have := storeField_ok hst hm
                simp only [List.length_take] at this
                omega
              refine ⟨_, r, s', st2, rfl, a2.inv,
                .field hc hn hf rfl h1 h2 (by simp [hm, hk]) hst (fun hr => ?_), ?_,
                fun h h' => by simp [h'] at h⟩
              · exact List.take_of_length_le (hshort hr).le
              · intro hr
                exact a4 (hshort (by simpa using hr))
      | file =>
        simp only [handleFile]
        cases hd : dispositionFileName d with
        | error e =>
          exact ⟨false, _, s, _, rfl, h.inv, .fileNameErr hc hn hf rfl hd, by simp, by simp⟩
        | ok fn =>
          simp only
          by_cases hfn : fn = []
          · subst hfn
            rw [if_pos rfl]
            exact ⟨false, _, s, _, rfl, h.inv, .noFileName hc hn hf rfl hd, by simp, by simp⟩
          · rw [if_neg hfn]
            obtain ⟨r, s', cs', w', b1, b2, b3, b4⟩ :=
              receiveFile_spec H fuel64 (fileArgs name fn (transferEnc md) md) s st1.world h
            rw [b1]
            rcases r with e | u
            · by_cases he : e = .skipFile
              · subst he
                simp only
                rcases hcl : closeFiles H (List.range H.count) w' with ⟨(e | _), w2⟩
                · exact ⟨_, _, s', _, rfl, b2.inv, .fileSkip hc hn hf rfl hd hfn b3 hcl, by simp,
                    by simp⟩
                · obtain ⟨s2, c1, c2, c3, c4, _⟩ := LazyStream.exhaust_spec L s' b2.inv
                  simp only [c1]
                  exact ⟨_, _, s2, _, rfl, c2, .fileSkip hc hn hf rfl hd hfn b3 hcl, fun _ => c4,
                    by simp⟩
              · refine ⟨false, .error e, s', { st1 with world := w', counters := cs' }, ?_, b2.inv,
                  .fileErr hc hn hf rfl hd hfn b3 he, by simp, by simp⟩
                cases e <;> first | rfl | exact absurd rfl he
            · exact ⟨true, _, s', _, rfl, b2.inv, .file hc hn hf rfl hd hfn b3, fun _ => b4 rfl,
                by simp⟩

end

/-! ### RAW items have no content disposition -/

theorem partHeaders_raw (C : Codecs) : ∀ (ls : List Bytes) (t : ItemType) (md : MetaData)
    (t' : ItemType) (md' : MetaData), partHeaders C ls t md = .ok (t', md') →
    (t = .raw → md.get? b!"content-disposition" = none) →
    t' = .raw → md'.get? b!"content-disposition" = none := by
  intro ls
  induction ls with
  | nil =>
    intro t md t' md' h h0 ht
    simp only [partHeaders, Except.ok.injEq, Prod.mk.injEq] at h
    obtain ⟨rfl, rfl⟩ := h
    exact h0 ht
  | cons l ls ih =>
    intro t md t' md' h h0 ht
    unfold partHeaders at h
    split at h
    · split at h
      · exact ih _ _ _ _ h h0 ht
      · simp at h
    · rename_i name value params _
      simp only at h
      refine ih _ _ _ _ h ?_ ht
      intro h1
      rw [Dict.get?_set]
      split at h1
      · split at h1 <;> simp at h1
      · rename_i hne
        rw [if_neg hne]
        exact h0 h1

theorem partHead_raw {C : Codecs} {P : Bytes} {t : ItemType} {md : MetaData} {content : Bytes}
    (h : PartHead C P t md content) (ht : t = .raw) : partName md = none := by
  cases h with
  | noHeader => rfl
  | header _ _ h => exact absurd ht h
  | rawHeader _ h =>
    have := partHeaders_raw C _ _ _ _ _ h (fun _ => rfl) rfl
    simp [partName, this]

/-! ### The loop over the parts -/

section
variable {ρ σ F : Type} [Producer ρ] (L : Lawful (ChunkIter ρ))

theorem partsLoop_spec (C : Codecs) (S : Settings) (H : HandlerOps ρ σ F) (fuel64 : Nat) {sep : Bytes}
    (hs : SepOK sep) :
    ∀ (fuel : Nat) (s : LazyStream (ChunkIter ρ)) (st : PState σ F), L.Inv s.producer →
      Strong s.history s.leftover.length → s.length = none → s.size < fuel →
      ∃ r s' st', partsLoop C S H fuel64 sep fuel s st = (r, s', st') ∧ L.Inv s'.producer ∧
        Parses C S H fuel64 sep (L.sc s) st r (L.sc s') st' := by
  intro fuel
  induction fuel with
  | zero => intro s st _ _ _ h; omega
  | succ fuel ih =>
    intro s st hI hH hl hf
    unfold partsLoop
    rcases nextPart_spec L ChunkIter.nonEmpty hs s hI hH hl with
      ⟨s', e, h1, h2, h3, _, h4⟩ | ⟨b, e, h1, h2, h3, h4⟩
    · rw [e]
      exact ⟨_, s', st, rfl, h3, by rw [h1, h2]; exact .done⟩
    · rw [e]
      simp only
      rcases parseBoundaryStream_spec L C ChunkIter.nonEmpty hs (L.sc s) s.size h1 b h2 h3 h4 with
        ⟨e, s', a1, a2, a3⟩ | ⟨t, md, content, s', a1, a2, a3, a4, a5⟩
      · rw [a1]
        obtain ⟨g1, _, _, _, g2, _⟩ := lawful_progress L ChunkIter.nonEmpty hs _ _ h1 _ a3.inv
        exact ⟨_, _, st, rfl, g1, .headErr h1 a2 g2⟩
      · rw [a1]
        simp only
        obtain ⟨bb, r, s2, st2, b1, b2, b3, b4, b5⟩ :=
          handlePart_spec C S H fuel64 t md s' st a3 (partHead_raw a2)
        rw [b1]
        obtain ⟨g1, g2, g3, g4, g5, g6, g7⟩ :=
          lawful_progress L ChunkIter.nonEmpty hs _ _ h1 _ b2
        rw [a4] at b3
        rcases r with e | u
        · exact ⟨_, _, st2, rfl, g1, .partErr h1 a2 b3 g5⟩
        · simp only
          obtain ⟨r, s3, st3, c1, c2, c3⟩ := ih s2.producer.stream st2 g1 g2 g6 (by omega)
          refine ⟨r, s3, st3, c1, c2, .part h1 a2 b3 g5 g4 ?_ c3⟩
          intro hor
          apply g7
          cases bb with
          | true => exact b4 rfl
          | false =>
            rcases hor with hor | hor
            · simp at hor
            · rw [b5 rfl rfl]; exact a5 hor

end
end Verif
