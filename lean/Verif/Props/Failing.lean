import Verif.Model.Request
import Verif.Model.Load
import Verif.Props.Isolated
import Verif.Props.Message
import Verif.Proofs.Request
/-!
# Streams that fail (C124)

A stream that fails is compared with one that has the same chunks and goes on: until the exception both are read in the
same way.
-/

namespace Verif

/-- `p` does the same as `q`, unless it raises `exc`. -/
structure Failing (ρ τ : Type) [Producer ρ] [Producer τ] where
  rel : ρ → τ → Prop
  exc : Exc
  size : ∀ {p q}, rel p q → Producer.size p = Producer.size q
  step : ∀ {p q}, rel p q → (Producer.next p).1 = .error exc ∨
    ((Producer.next p).1 = (Producer.next q).1 ∧ rel (Producer.next p).2 (Producer.next q).2)

namespace Failing

section
variable {ρ τ : Type} [Producer ρ] [Producer τ] (K : Failing ρ τ)

/-- The streams over them differ in nothing else. -/
inductive Str : LazyStream ρ → LazyStream τ → Prop
  | mk {p : ρ} {q : τ} (h : K.rel p q) (l : Bytes) (n : Option Int) (o : Int) (hi : List Nat) :
    Str ⟨p, l, n, o, hi⟩ ⟨q, l, n, o, hi⟩

/-- The exception, or the same result and streams that still agree. -/
inductive Same {α : Type} : Res (LazyStream ρ) α → Res (LazyStream τ) α → Prop
  | fails {s : LazyStream ρ} {y : Res (LazyStream τ) α} : Same (.error K.exc, s) y
  | same (x : Except Exc α) {s : LazyStream ρ} {t : LazyStream τ} (h : K.Str s t) : Same (x, s) (x, t)

/-- The same with some more of the state. -/
inductive Same' {α β : Type} : Except Exc α × LazyStream ρ × β → Except Exc α × LazyStream τ × β → Prop
  | fails {s : LazyStream ρ} {b : β} {y : Except Exc α × LazyStream τ × β} : Same' (.error K.exc, s, b) y
  | same (x : Except Exc α) {s : LazyStream ρ} {t : LazyStream τ} (h : K.Str s t) {b : β} : Same' (x, s, b) (x, t, b)

theorem str_size {s : LazyStream ρ} {t : LazyStream τ} (h : K.Str s t) : s.size = t.size := by
  obtain ⟨h, l, n, o, hi⟩ := h
  simp only [LazyStream.size, K.size h]

theorem str_length {s : LazyStream ρ} {t : LazyStream τ} (h : K.Str s t) : s.length = t.length := by
  obtain ⟨h, l, n, o, hi⟩ := h
  rfl

theorem next {s : LazyStream ρ} {t : LazyStream τ} (h : K.Str s t) : K.Same s.next t.next := by
  obtain ⟨h, l, n, o, hi⟩ := h
  rename_i p q
  unfold LazyStream.next
  by_cases hl : l = []
  · simp only [hl, ne_eq, not_true, if_false]
    have := K.step h
    generalize Producer.next p = x at this
    generalize Producer.next q = y at this
    obtain ⟨x, p'⟩ := x
    obtain ⟨y, q'⟩ := y
    rcases this with h1 | ⟨h1, h2⟩
    · simp only at h1
      subst h1
      exact .fails
    · simp only at h1 h2
      subst h1
      rcases x with e | _ | c
      · exact .same _ ⟨h2, _, _, _, _⟩
      · exact .same _ ⟨h2, _, _, _, _⟩
      · exact .same _ ⟨h2, _, _, _, _⟩
  · simp only [ne_eq, hl, not_false_eq_true, if_true]
    exact .same _ ⟨h, _, _, _, _⟩

theorem unget {s : LazyStream ρ} {t : LazyStream τ} (b : Bytes) (h : K.Str s t) : K.Same (s.unget b) (t.unget b) := by
  obtain ⟨h, l, n, o, hi⟩ := h
  unfold LazyStream.unget
  split
  · exact .same _ ⟨h, _, _, _, _⟩
  · simp only
    split
    · exact .same _ ⟨h, _, _, _, _⟩
    · exact .same _ ⟨h, _, _, _, _⟩

theorem readLoop : ∀ (fuel n : Nat) (acc : Bytes) {s : LazyStream ρ} {t : LazyStream τ}, K.Str s t →
    K.Same (LazyStream.readLoop fuel n acc s) (LazyStream.readLoop fuel n acc t)
  | 0, n, acc, s, t, h => by
    unfold LazyStream.readLoop
    split <;> exact .same _ h
  | fuel + 1, n, acc, s, t, h => by
    unfold LazyStream.readLoop
    split
    · exact .same _ h
    · have hx := K.next h
      generalize s.next = x at hx
      generalize t.next = y at hx
      cases hx with
      | fails => exact .fails
      | same x h =>
        rename_i s t
        rcases x with e | _ | c
        · exact .same _ h
        · exact .same _ h
        · simp only
          have hx := K.unget (c.drop n) h
          generalize s.unget (c.drop n) = x at hx
          generalize t.unget (c.drop n) = y at hx
          cases hx with
          | fails => exact .fails
          | same x h =>
            rcases x with e | u
            · exact .same _ h
            · exact readLoop fuel _ _ h

theorem joinAll : ∀ (fuel : Nat) (acc : Bytes) {s : LazyStream ρ} {t : LazyStream τ}, K.Str s t →
    K.Same (LazyStream.joinAll fuel acc s) (LazyStream.joinAll fuel acc t)
  | 0, acc, s, t, h => .same _ h
  | fuel + 1, acc, s, t, h => by
    unfold LazyStream.joinAll
    have hx := K.next h
    generalize s.next = x at hx
    generalize t.next = y at hx
    cases hx with
    | fails => exact .fails
    | same x h =>
      rcases x with e | _ | c
      · exact .same _ h
      · exact .same _ h
      · exact joinAll fuel _ h

theorem read {s : LazyStream ρ} {t : LazyStream τ} (h : K.Str s t) (n : Option Int) : K.Same (s.read n) (t.read n) := by
  unfold LazyStream.read
  simp only [K.str_length h, K.str_size h]
  split
  · exact K.joinAll _ _ h
  · split
    · exact .same _ h
    · exact K.readLoop _ _ _ h

theorem exhaustLoop : ∀ (fuel : Nat) {s : LazyStream ρ} {t : LazyStream τ}, K.Str s t →
    K.Same (Verif.exhaustLoop fuel s) (Verif.exhaustLoop fuel t)
  | 0, s, t, h => .same _ h
  | fuel + 1, s, t, h => by
    unfold Verif.exhaustLoop
    have hx := K.next h
    generalize s.next = x at hx
    generalize t.next = y at hx
    cases hx with
    | fails => exact .fails
    | same x h =>
      rcases x with e | _ | c
      · exact .same _ h
      · exact .same _ h
      · exact exhaustLoop fuel h

theorem exhaust {s : LazyStream ρ} {t : LazyStream τ} (h : K.Str s t) : K.Same (Verif.exhaust s) (Verif.exhaust t) := by
  unfold Verif.exhaust
  rw [K.str_size h]
  exact K.exhaustLoop _ h

/-- A `ChunkIter` over a stream that may fail. -/
def chunks (hx : K.exc ≠ .inputStreamExhausted) : Failing (ChunkIter ρ) (ChunkIter τ) where
  rel c d := K.Str c.flo d.flo ∧ c.chunkSize = d.chunkSize
  exc := K.exc
  size h := K.str_size h.1
  step := by
    rintro ⟨s, n⟩ ⟨t, _⟩ ⟨h, h'⟩
    simp only at h h'
    subst h'
    show (ChunkIter.next _).1 = _ ∨ ((ChunkIter.next _).1 = (ChunkIter.next _).1 ∧
      K.Str (ChunkIter.next _).2.flo (ChunkIter.next _).2.flo ∧ (ChunkIter.next _).2.chunkSize = (ChunkIter.next _).2.chunkSize)
    unfold ChunkIter.next
    simp only
    have h1 := K.read h (some n)
    generalize s.read (some n) = x at h1
    generalize t.read (some n) = y at h1
    cases h1 with
    | fails =>
      left
      generalize K.exc = e at hx
      cases e <;> first | exact absurd rfl hx | rfl
    | same x h =>
      right
      rcases x with e | b
      · cases e <;> exact ⟨rfl, h, rfl⟩
      · exact ⟨rfl, h, rfl⟩

theorem gather (rb : Nat) : ∀ (fuel : Nat) (acc : Bytes) (any : Bool) {s : LazyStream ρ} {t : LazyStream τ}, K.Str s t →
    K.Same (BoundaryIter.gather rb fuel acc any s) (BoundaryIter.gather rb fuel acc any t)
  | 0, acc, any, s, t, h => .same _ h
  | fuel + 1, acc, any, s, t, h => by
    unfold BoundaryIter.gather
    have hx := K.next h
    generalize s.next = x at hx
    generalize t.next = y at hx
    cases hx with
    | fails => exact .fails
    | same x h =>
      rcases x with e | _ | c
      · exact .same _ h
      · exact .same _ h
      · simp only
        split
        · exact .same _ h
        · split
          · exact .same _ h
          · exact gather rb fuel _ _ h

/-- Two parts differ only in their streams. -/
inductive Part : BoundaryIter ρ → BoundaryIter τ → Prop
  | mk {s : LazyStream ρ} {t : LazyStream τ} (h : K.Str s t) (b : Bytes) (r : Nat) (d : Bool) :
    Part ⟨s, b, r, d⟩ ⟨t, b, r, d⟩

theorem boundaryNext {b : BoundaryIter ρ} {c : BoundaryIter τ} (h : K.Part b c) :
    b.next.1 = .error K.exc ∨ (b.next.1 = c.next.1 ∧ K.Part b.next.2 c.next.2) := by
  obtain ⟨h, sep, rb, d⟩ := h
  rename_i s t
  unfold BoundaryIter.next
  simp only
  split
  · exact .inr ⟨rfl, h, _, _, _⟩
  · rw [K.str_size h]
    have hx := K.gather rb (t.size + 1) [] false h
    generalize BoundaryIter.gather rb (t.size + 1) [] false s = x at hx
    generalize BoundaryIter.gather rb (t.size + 1) [] false t = y at hx
    cases hx with
    | fails => exact .inl rfl
    | same x h =>
      rename_i s t
      rcases x with e | ⟨chunk, any, stopped⟩
      · exact .inr ⟨rfl, h, _, _, _⟩
      · simp only
        split
        · exact .inr ⟨rfl, h, _, _, _⟩
        · split
          · rename_i end_ nxt _
            have hx := K.unget (chunk.drop nxt) h
            generalize s.unget (chunk.drop nxt) = x at hx
            generalize t.unget (chunk.drop nxt) = y at hx
            cases hx with
            | fails => exact .inl rfl
            | same x h => rcases x with e | u <;> exact .inr ⟨rfl, h, _, _, _⟩
          · split
            · exact .inr ⟨rfl, h, _, _, _⟩
            · have hx := K.unget (chunk.drop (chunk.length - rb)) h
              generalize s.unget (chunk.drop (chunk.length - rb)) = x at hx
              generalize t.unget (chunk.drop (chunk.length - rb)) = y at hx
              cases hx with
              | fails => exact .inl rfl
              | same x h => rcases x with e | u <;> exact .inr ⟨rfl, h, _, _, _⟩

theorem part_size {b : BoundaryIter ρ} {c : BoundaryIter τ} (h : K.Part b c) : Producer.size b = Producer.size c := by
  obtain ⟨h, sep, rb, d⟩ := h
  show (if d then 0 else 1 + _) = if d then 0 else 1 + _
  simp only [K.str_size h]

/-- A part of a body that may fail. -/
def part : Failing (BoundaryIter ρ) (BoundaryIter τ) where
  rel := K.Part
  exc := K.exc
  size h := K.part_size h
  step h := K.boundaryNext h

/-- The same for a separator that is a `unicode` object. -/
def textPart : Failing (TextBoundaryIter ρ) (TextBoundaryIter τ) where
  rel a b := K.Part a.iter b.iter
  exc := K.exc
  size h := K.part_size h
  step := by
    rintro ⟨b⟩ ⟨c⟩ h
    simp only at h
    show (TextBoundaryIter.next _).1 = _ ∨ ((TextBoundaryIter.next _).1 = (TextBoundaryIter.next _).1 ∧
      K.Part (TextBoundaryIter.next _).2.iter (TextBoundaryIter.next _).2.iter)
    have hn := K.boundaryNext h
    obtain ⟨h, sep, rb, d⟩ := h
    rename_i s t
    unfold TextBoundaryIter.next
    simp only
    split
    · exact .inr ⟨rfl, h, _, _, _⟩
    · rename_i hd
      have hx := K.gather rb (s.size + 1) [] false h
      rw [← K.str_size h]
      generalize hg : BoundaryIter.gather rb (s.size + 1) [] false s = x at hx
      generalize BoundaryIter.gather rb (s.size + 1) [] false t = y at hx
      cases hx with
      | fails =>
        left
        simp only [BoundaryIter.next, if_neg hd, hg]
      | same x h =>
        rcases x with e | ⟨chunk, any, stopped⟩
        · exact hn
        · cases any
          · exact hn
          · simp only
            split
            · exact hn
            · exact .inr ⟨rfl, h, _, _, _⟩

/-- The exception, or a `BoundaryIter` on streams that agree. -/
inductive Created : Res (LazyStream ρ) (BoundaryIter ρ) → Res (LazyStream τ) (BoundaryIter τ) → Prop
  | fails {s : LazyStream ρ} {y : Res (LazyStream τ) (BoundaryIter τ)} : Created (.error K.exc, s) y
  | err (e : Exc) {s : LazyStream ρ} {t : LazyStream τ} (h : K.Str s t) : Created (.error e, s) (.error e, t)
  | ok {b : BoundaryIter ρ} {c : BoundaryIter τ} {s : LazyStream ρ} {t : LazyStream τ} (h : K.Part b c)
    (h' : K.Str s t) : Created (.ok b, s) (.ok c, t)

theorem create (sep : Bytes) {s : LazyStream ρ} {t : LazyStream τ} (h : K.Str s t) :
    K.Created (BoundaryIter.create s sep) (BoundaryIter.create t sep) := by
  unfold BoundaryIter.create
  have hx := K.read h (some 1)
  generalize s.read (some 1) = x at hx
  generalize t.read (some 1) = y at hx
  cases hx with
  | fails => exact .fails
  | same x h =>
    rename_i s t
    rcases x with e | b
    · exact .err _ h
    · simp only
      split
      · exact .err _ h
      · have hx := K.unget b h
        generalize s.unget b = x at hx
        generalize t.unget b = y at hx
        cases hx with
        | fails => exact .fails
        | same x h =>
          rcases x with e | u
          · exact .err _ h
          · exact .ok ⟨h, _, _, _⟩ h

/-- The exception, or the same decision about the next part. -/
inductive NextPart {β γ : Type} [Producer β] [Producer γ] (P : Failing β γ) :
    Res (LazyStream ρ) (Option (LazyStream β)) → Res (LazyStream τ) (Option (LazyStream γ)) → Prop
  | fails {s : LazyStream ρ} {y : Res (LazyStream τ) (Option (LazyStream γ))} : NextPart P (.error K.exc, s) y
  | err (e : Exc) {s : LazyStream ρ} {t : LazyStream τ} (h : K.Str s t) : NextPart P (.error e, s) (.error e, t)
  | none {s : LazyStream ρ} {t : LazyStream τ} (h : K.Str s t) : NextPart P (.ok none, s) (.ok none, t)
  | some {b : LazyStream β} {c : LazyStream γ} {s : LazyStream ρ} {t : LazyStream τ} (h : P.Str b c) :
    NextPart P (.ok (some b), s) (.ok (some c), t)

theorem nextPart (sep : Bytes) {s : LazyStream ρ} {t : LazyStream τ} (h : K.Str s t)
    (hx : K.exc ≠ .inputStreamExhausted) :
    K.NextPart K.part (Verif.nextPart s sep) (Verif.nextPart t sep) := by
  unfold Verif.nextPart
  have h1 := K.create sep h
  generalize BoundaryIter.create s sep = x at h1
  generalize BoundaryIter.create t sep = y at h1
  cases h1 with
  | fails =>
    have hf : ∀ s y, K.NextPart K.part (.error K.exc, s) y := fun _ _ => .fails
    generalize K.exc = e at hx hf
    cases e <;> first | exact absurd rfl hx | exact hf _ _
  | err e h => cases e <;> first | exact .none h | exact .err _ h
  | ok h h' => exact .some ⟨h, _, _, _, _⟩

theorem nextTextPart (sep : Bytes) {s : LazyStream ρ} {t : LazyStream τ} (h : K.Str s t)
    (hx : K.exc ≠ .inputStreamExhausted) :
    K.NextPart K.textPart (Verif.nextTextPart s sep) (Verif.nextTextPart t sep) := by
  unfold Verif.nextTextPart
  have h1 := K.create sep h
  generalize BoundaryIter.create s sep = x at h1
  generalize BoundaryIter.create t sep = y at h1
  cases h1 with
  | fails =>
    have hf : ∀ s y, K.NextPart K.textPart (.error K.exc, s) y := fun _ _ => .fails
    generalize K.exc = e at hx hf
    cases e <;> first | exact absurd rfl hx | exact hf _ _
  | err e h => cases e <;> first | exact .none h | exact .err _ h
  | ok h h' => exact .some ⟨h, _, _, _, _⟩

theorem parseBoundaryStream (C : Codecs) (n : Nat) {s : LazyStream ρ} {t : LazyStream τ} (h : K.Str s t) :
    K.Same (Verif.parseBoundaryStream C s n) (Verif.parseBoundaryStream C t n) := by
  unfold Verif.parseBoundaryStream
  have hx := K.read h (some n)
  generalize s.read (some n) = x at hx
  generalize t.read (some n) = y at hx
  cases hx with
  | fails => exact .fails
  | same x h =>
    rename_i s t
    rcases x with e | chunk
    · exact .same _ h
    · simp only
      split
      · have hx := K.unget chunk h
        generalize s.unget chunk = x at hx
        generalize t.unget chunk = y at hx
        cases hx with
        | fails => exact .fails
        | same x h =>
          rcases x with e | u <;> exact .same _ h
      · rename_i k _
        have hx := K.unget (chunk.drop (k + 4)) h
        generalize s.unget (chunk.drop (k + 4)) = x at hx
        generalize t.unget (chunk.drop (k + 4)) = y at hx
        cases hx with
        | fails => exact .fails
        | same x h =>
          rename_i s t
          rcases x with e | u
          · exact .same _ h
          · simp only
            split
            · exact .same _ h
            · split
              · have hx := K.unget chunk h
                generalize s.unget chunk = x at hx
                generalize t.unget chunk = y at hx
                cases hx with
                | fails => exact .fails
                | same x h =>
                  rcases x with e | u <;> exact .same _ h
              · exact .same _ h

theorem fillBase64 : ∀ (fuel : Nat) (b : Bytes) {s : LazyStream ρ} {t : LazyStream τ}, K.Str s t →
    K.Same (Verif.fillBase64 fuel b s) (Verif.fillBase64 fuel b t)
  | 0, b, s, t, h => by
    unfold Verif.fillBase64
    split <;> exact .same _ h
  | fuel + 1, b, s, t, h => by
    unfold Verif.fillBase64
    split
    · exact .same _ h
    · have hx := K.read h (some (4 - b.length % 4 : Nat))
      generalize s.read (some (4 - b.length % 4 : Nat)) = x at hx
      generalize t.read (some (4 - b.length % 4 : Nat)) = y at hx
      cases hx with
      | fails => exact .fails
      | same x h =>
        rcases x with e | c
        · exact .same _ h
        · exact fillBase64 fuel _ h

theorem fileChunk (fuel : Nat) (b64 : Bool) (chunk : Bytes) {s : LazyStream ρ} {t : LazyStream τ} (h : K.Str s t) :
    K.Same (Verif.fileChunk fuel b64 chunk s) (Verif.fileChunk fuel b64 chunk t) := by
  unfold Verif.fileChunk
  split
  · have hx := K.fillBase64 fuel (Py.removeSpaces chunk) h
    generalize Verif.fillBase64 fuel (Py.removeSpaces chunk) s = x at hx
    generalize Verif.fillBase64 fuel (Py.removeSpaces chunk) t = y at hx
    cases hx with
    | fails => exact .fails
    | same x h =>
      rcases x with e | c
      · exact .same _ h
      · simp only
        split <;> exact .same _ h
  · exact .same _ h

end

end Failing

/-- The same upload handlers for another kind of input stream. -/
def HandlerOps.over {ρ τ σ F : Type} (H : HandlerOps ρ σ F)
    (raw : Nat → RawArgs → LazyStream τ → σ → Except Exc (Option (MVD PostItem × MVD F)) × LazyStream τ × σ) :
    HandlerOps τ σ F where
  count := H.count
  chunkSize := H.chunkSize
  rawInput := raw
  newFile := H.newFile
  receive := H.receive
  fileComplete := H.fileComplete
  truthy := H.truthy
  uploadComplete := H.uploadComplete
  close := H.close

section
variable {ρ τ σ F : Type} (H : HandlerOps ρ σ F)
  (raw : Nat → RawArgs → LazyStream τ → σ → Except Exc (Option (MVD PostItem × MVD F)) × LazyStream τ × σ)

theorem over_count : (H.over raw).count = H.count := rfl

theorem over_completeLoop (cs : List Nat) : ∀ (is : List Nat) (w : σ),
    completeLoop (H.over raw) cs is w = completeLoop H cs is w
  | [], _ => rfl
  | i :: is, w => by
    unfold completeLoop
    simp only [over_completeLoop cs is]
    rfl

theorem over_handleFileComplete (name : Bytes) (st : PState σ F) :
    handleFileComplete (H.over raw) name st = handleFileComplete H name st := by
  unfold handleFileComplete
  rw [over_completeLoop]
  rfl

theorem over_closeFiles : ∀ (is : List Nat) (w : σ), closeFiles (H.over raw) is w = closeFiles H is w
  | [], _ => rfl
  | i :: is, w => by
    unfold closeFiles
    simp only [over_closeFiles is]
    rfl

theorem over_newFiles (a : NewFileArgs) : ∀ (is : List Nat) (w : σ), newFiles (H.over raw) a is w = newFiles H a is w
  | [], _ => rfl
  | i :: is, w => by
    unfold newFiles
    simp only [over_newFiles a is]
    rfl

theorem over_feedChunk : ∀ (is : List Nat) (c : Bytes) (cs : List Nat) (w : σ),
    feedChunk (H.over raw) is c cs w = feedChunk H is c cs w
  | [], _, _, _ => rfl
  | i :: is, c, cs, w => by
    unfold feedChunk
    simp only [over_feedChunk is]
    rfl

theorem over_uploadComplete : ∀ (is : List Nat) (w : σ),
    uploadCompleteLoop (H.over raw) is w = uploadCompleteLoop H is w
  | [], _ => rfl
  | i :: is, w => by
    unfold uploadCompleteLoop
    simp only [over_uploadComplete is]
    rfl

theorem over_completeOld (st : PState σ F) : completeOld (H.over raw) st = completeOld H st := by
  unfold completeOld
  simp only [over_handleFileComplete]

end

namespace Failing

section
variable {ρ τ ρ' τ' σ F : Type} [Producer ρ] [Producer τ] (K : Failing ρ τ) (H : HandlerOps ρ' σ F)
  (raw : Nat → RawArgs → LazyStream τ' → σ → Except Exc (Option (MVD PostItem × MVD F)) × LazyStream τ' × σ)

theorem fileLoop (f64 : Nat) (b64 : Bool) :
    ∀ (fuel : Nat) {s : LazyStream ρ} {t : LazyStream τ} (cs : List Nat) (w : σ), K.Str s t →
      K.Same' (Verif.fileLoop H f64 b64 fuel s cs w) (Verif.fileLoop (H.over raw) f64 b64 fuel t cs w)
  | 0, s, t, cs, w, h => .same _ h
  | fuel + 1, s, t, cs, w, h => by
    unfold Verif.fileLoop
    have hx := K.next h
    generalize s.next = x at hx
    generalize t.next = y at hx
    cases hx with
    | fails => exact .fails
    | same x h =>
      rename_i s t
      rcases x with e | _ | c
      · exact .same _ h
      · exact .same _ h
      · simp only
        have hx := K.fileChunk f64 b64 c h
        generalize Verif.fileChunk f64 b64 c s = x at hx
        generalize Verif.fileChunk f64 b64 c t = y at hx
        cases hx with
        | fails => exact .fails
        | same x h =>
          rcases x with e | c
          · exact .same _ h
          · simp only [over_feedChunk, over_count]
            rcases feedChunk H (List.range H.count) c cs w with ⟨e | u, cs, w⟩
            · exact .same _ h
            · exact fileLoop f64 b64 fuel _ _ h

theorem receiveFile (f64 : Nat) (a : NewFileArgs) {s : LazyStream ρ} {t : LazyStream τ} (w : σ) (h : K.Str s t) :
    K.Same' (Verif.receiveFile H f64 a s w) (Verif.receiveFile (H.over raw) f64 a t w) := by
  unfold Verif.receiveFile
  simp only [over_newFiles, over_count, K.str_size h]
  rcases newFiles H a (List.range H.count) w with ⟨e | u, w⟩
  · exact .same _ h
  · exact K.fileLoop H raw _ _ _ _ _ h

theorem handleFile (f64 : Nat) (name : Bytes) (te : Option Bytes) (md : MetaData) (d : Dict Bytes PyStr)
    {s : LazyStream ρ} {t : LazyStream τ} (st : PState σ F) (h : K.Str s t) (hx : K.exc ≠ .skipFile) :
    K.Same' (Verif.handleFile H f64 name te md d s st) (Verif.handleFile (H.over raw) f64 name te md d t st) := by
  unfold Verif.handleFile
  split
  · exact .same _ h
  · rename_i fn _
    split
    · exact .same _ h
    · have h1 := K.receiveFile H raw f64 (fileArgs name fn te md) st.world h
      generalize Verif.receiveFile H f64 (fileArgs name fn te md) s st.world = x at h1
      generalize Verif.receiveFile (H.over raw) f64 (fileArgs name fn te md) t st.world = y at h1
      cases h1 with
      | @fails s b y =>
        split
        · rename_i e
          cases e
        · rename_i e
          exact absurd (congrArg Prod.fst e) (by simpa using hx)
        · rename_i e
          obtain ⟨e1, -⟩ := Prod.mk.injEq .. ▸ e
          rw [← Except.error.inj e1]
          exact .fails
      | @same x s t h b =>
        obtain ⟨cs, w⟩ := b
        rcases x with e | u
        · have : ∀ e, e ≠ .skipFile →
              K.Same' (α := Unit) (.error e, s, ({ st with world := w, counters := cs } : PState σ F))
                (.error e, t, { st with world := w, counters := cs }) := fun e _ => .same _ h
          cases e <;> first | exact this _ (by simp) | skip
          simp only [over_closeFiles, over_count]
          rcases closeFiles H (List.range H.count) w with ⟨e | u, w⟩
          · exact .same _ h
          · simp only
            have hx := K.exhaust h
            generalize Verif.exhaust s = x at hx
            generalize Verif.exhaust t = y at hx
            cases hx with
            | fails => exact .fails
            | same x h =>
              rcases x with e | u <;> exact .same _ h
        · exact .same _ h

theorem handleField (C : Codecs) (S : Settings) (name : Bytes) (te : Option Bytes) (md : MetaData)
    {s : LazyStream ρ} {t : LazyStream τ} (st : PState σ F) (h : K.Str s t) :
    K.Same' (Verif.handleField C S name te md s st) (Verif.handleField C S name te md t st) := by
  unfold Verif.handleField
  simp only
  split
  · exact .same _ h
  · have hx := K.read h (S.dataMaxMemory.map (· - (st.numBytes : Int)))
    generalize s.read (S.dataMaxMemory.map (· - (st.numBytes : Int))) = x at hx
    generalize t.read (S.dataMaxMemory.map (· - (st.numBytes : Int))) = y at hx
    cases hx with
    | fails => exact .fails
    | same x h =>
      rcases x with e | c
      · exact .same _ h
      · exact .same _ h

theorem handlePart (C : Codecs) (S : Settings) (f64 : Nat) (ty : ItemType) (md : MetaData)
    {s : LazyStream ρ} {t : LazyStream τ} (st : PState σ F) (h : K.Str s t) (hx : K.exc ≠ .skipFile) :
    K.Same' (Verif.handlePart C S H f64 ty md s st) (Verif.handlePart C S (H.over raw) f64 ty md t st) := by
  unfold Verif.handlePart
  simp only [over_completeOld]
  split
  · exact .same _ h
  · split
    · exact .same _ h
    · split
      · exact .same _ h
      · split
        · exact K.handleField C S _ _ _ _ h
        · exact K.handleFile H raw _ _ _ _ _ _ h hx
        · exact .same _ h

end

section
variable {ρ τ σ F : Type} [Producer ρ] [Producer τ] (K : Failing ρ τ) (H : HandlerOps ρ σ F)
  (raw : Nat → RawArgs → LazyStream τ → σ → Except Exc (Option (MVD PostItem × MVD F)) × LazyStream τ × σ)

theorem part_stream {b : LazyStream (BoundaryIter ρ)} {c : LazyStream (BoundaryIter τ)} (h : K.part.Str b c) :
    K.Str b.producer.stream c.producer.stream := by
  obtain ⟨h, l, n, o, hi⟩ := h
  obtain ⟨h, sep, rb, d⟩ := h
  exact h

theorem textPart_stream {b : LazyStream (TextBoundaryIter ρ)} {c : LazyStream (TextBoundaryIter τ)}
    (h : K.textPart.Str b c) : K.Str b.producer.iter.stream c.producer.iter.stream := by
  obtain ⟨h, l, n, o, hi⟩ := h
  rename_i p q
  obtain ⟨b⟩ := p
  obtain ⟨c⟩ := q
  have h' : K.Part b c := h
  clear h
  obtain ⟨h, sep, rb, d⟩ := h'
  exact h

theorem flo (hc : K.exc ≠ .inputStreamExhausted) {s : LazyStream (ChunkIter ρ)} {t : LazyStream (ChunkIter τ)}
    (h : (K.chunks hc).Str s t) : K.Str s.producer.flo t.producer.flo := by
  obtain ⟨h, l, n, o, hi⟩ := h
  exact h.1

/-- The exceptions that the parser takes for messages of its own parts. -/
def Own (e : Exc) : Prop :=
  e = .inputStreamExhausted ∨ e = .skipFile ∨ (∃ b, e = .stopUpload b) ∨ e = .multiPartParserError

/-- The handlers do the same with the raw input, unless it fails. -/
def Passes : Prop := ∀ i a s t w, K.Str s t → K.Same' (H.rawInput i a s w) (raw i a t w)

theorem rawInputLoop (hH : K.Passes H raw) (a : RawArgs) : ∀ (is : List Nat) {s : LazyStream ρ} {t : LazyStream τ} (w : σ),
    K.Str s t → K.Same' (Verif.rawInputLoop H a is s w) (Verif.rawInputLoop (H.over raw) a is t w)
  | [], s, t, w, h => .same _ h
  | i :: is, s, t, w, h => by
    unfold Verif.rawInputLoop
    have h1 : K.Same' (H.rawInput i a s w) ((H.over raw).rawInput i a t w) := hH i a s t w h
    generalize H.rawInput i a s w = x at h1
    generalize (H.over raw).rawInput i a t w = y at h1
    cases h1 with
    | fails => exact .fails
    | same x h =>
      rcases x with e | _ | r
      · exact .same _ h
      · exact rawInputLoop hH a is _ h
      · exact .same _ h

theorem partsLoop (C : Codecs) (S : Settings) (f64 : Nat) (sep : Bytes) (hc : K.exc ≠ .inputStreamExhausted)
    (hs : K.exc ≠ .skipFile) :
    ∀ (fuel : Nat) {s : LazyStream (ChunkIter ρ)} {t : LazyStream (ChunkIter τ)} (st : PState σ F),
      (K.chunks hc).Str s t →
      (K.chunks hc).Same' (Verif.partsLoop C S H f64 sep fuel s st) (Verif.partsLoop C S (H.over raw) f64 sep fuel t st)
  | 0, s, t, st, h => .same _ h
  | fuel + 1, s, t, st, h => by
    unfold Verif.partsLoop
    have h1 := (K.chunks hc).nextPart sep h hc
    generalize Verif.nextPart s sep = x at h1
    generalize Verif.nextPart t sep = y at h1
    cases h1 with
    | fails => exact .fails
    | err e h => exact .same _ h
    | none h => exact .same _ h
    | some h =>
      rename_i sub sub' _ _
      simp only
      have h2 := (K.chunks hc).part.parseBoundaryStream C 1024 h
      generalize Verif.parseBoundaryStream C sub 1024 = x at h2
      generalize Verif.parseBoundaryStream C sub' 1024 = y at h2
      cases h2 with
      | fails => exact .fails
      | same x h =>
        rename_i sub sub'
        rcases x with e | ⟨ty, md⟩
        · exact .same _ ((K.chunks hc).part_stream h)
        · simp only
          have h3 := (K.chunks hc).part.handlePart H raw C S f64 ty md st h hs
          generalize Verif.handlePart C S H f64 ty md sub st = x at h3
          generalize Verif.handlePart C S (H.over raw) f64 ty md sub' st = y at h3
          cases h3 with
          | fails => exact .fails
          | same x h =>
            rcases x with e | u
            · exact .same _ ((K.chunks hc).part_stream h)
            · exact partsLoop C S f64 sep hc hs fuel _ ((K.chunks hc).part_stream h)

theorem textPartsLoop (C : Codecs) (S : Settings) (f64 : Nat) (sep : Bytes) (hc : K.exc ≠ .inputStreamExhausted)
    (hs : K.exc ≠ .skipFile) :
    ∀ (fuel : Nat) {s : LazyStream (ChunkIter ρ)} {t : LazyStream (ChunkIter τ)} (st : PState σ F),
      (K.chunks hc).Str s t →
      (K.chunks hc).Same' (Verif.textPartsLoop C S H f64 sep fuel s st) (Verif.textPartsLoop C S (H.over raw) f64 sep fuel t st)
  | 0, s, t, st, h => .same _ h
  | fuel + 1, s, t, st, h => by
    unfold Verif.textPartsLoop
    have h1 := (K.chunks hc).nextTextPart sep h hc
    generalize Verif.nextTextPart s sep = x at h1
    generalize Verif.nextTextPart t sep = y at h1
    cases h1 with
    | fails => exact .fails
    | err e h => exact .same _ h
    | none h => exact .same _ h
    | some h =>
      rename_i sub sub' _ _
      simp only
      have h2 := (K.chunks hc).textPart.parseBoundaryStream C 1024 h
      generalize Verif.parseBoundaryStream C sub 1024 = x at h2
      generalize Verif.parseBoundaryStream C sub' 1024 = y at h2
      cases h2 with
      | fails => exact .fails
      | same x h =>
        rename_i sub sub'
        rcases x with e | ⟨ty, md⟩
        · exact .same _ ((K.chunks hc).textPart_stream h)
        · simp only
          have h3 := (K.chunks hc).textPart.handlePart H raw C S f64 ty md st h hs
          generalize Verif.handlePart C S H f64 ty md sub st = x at h3
          generalize Verif.handlePart C S (H.over raw) f64 ty md sub' st = y at h3
          cases h3 with
          | fails => exact .fails
          | same x h =>
            rcases x with e | u
            · exact .same _ ((K.chunks hc).textPart_stream h)
            · exact textPartsLoop C S f64 sep hc hs fuel _ ((K.chunks hc).textPart_stream h)

theorem parse (C : Codecs) (S : Settings) (f64 : Nat) (m : MultiPart) {s : LazyStream ρ} {t : LazyStream τ} (w : σ)
    (hH : K.Passes H raw) (hx : ¬ Own K.exc) (h : K.Str s t) :
    K.Same' (m.parse C S H f64 s w) (m.parse C S (H.over raw) f64 t w) := by
  have hc : K.exc ≠ .inputStreamExhausted := fun h => hx (.inl h)
  have hs : K.exc ≠ .skipFile := fun h => hx (.inr (.inl h))
  have ht : ∀ b, K.exc ≠ .stopUpload b := fun b h => hx (.inr (.inr (.inl ⟨b, h⟩)))
  unfold MultiPart.parse
  simp only [over_count]
  split
  · split <;> exact .same _ h
  · have h1 := K.rawInputLoop H raw hH { contentLength := m.contentLength, boundary := m.boundary, settings := S }
      (List.range H.count) w h
    generalize Verif.rawInputLoop H _ (List.range H.count) s w = x at h1
    generalize Verif.rawInputLoop (H.over raw) _ (List.range H.count) t w = y at h1
    cases h1 with
    | fails => exact .fails
    | @same x s t h w =>
      rcases x with e | _ | r
      · exact .same _ h
      · simp only
        split
        · exact .same _ h
        · have hb : (K.chunks hc).Str (LazyStream.mk' (⟨s, m.chunkSize⟩ : ChunkIter ρ)) (LazyStream.mk' ⟨t, m.chunkSize⟩) :=
            .mk (show (K.chunks hc).rel _ _ from ⟨h, rfl⟩) _ _ _ _
          rw [(K.chunks hc).str_size hb]
          have h2 := K.partsLoop H raw C S f64 (b!"--" ++ m.boundary) hc hs
            (LazyStream.size (LazyStream.mk' (⟨t, m.chunkSize⟩ : ChunkIter τ)) + 1)
            { world := w, counters := List.replicate H.count 0 } hb
          generalize Verif.partsLoop C S H f64 _ _ (LazyStream.mk' (⟨s, m.chunkSize⟩ : ChunkIter ρ)) _ = x at h2
          generalize Verif.partsLoop C S (H.over raw) f64 _ _ (LazyStream.mk' (⟨t, m.chunkSize⟩ : ChunkIter τ)) _ = y at h2
          cases h2 with
          | @fails bs bst y =>
            have hf : ∀ (s : LazyStream ρ) (w : σ) y, K.Same' (α := MVD PostItem × MVD F) (.error K.exc, s, w) y := fun _ _ _ => .fails
            have hK : (K.chunks hc).exc = K.exc := rfl
            rw [hK]
            clear hb hK
            revert bs
            revert hf ht
            generalize K.exc = e
            intro ht hf bs
            cases e <;> first | exact hf _ _ _ | exact absurd rfl (ht _)
          | @same x bs bt hb st =>
            have hflo := K.flo hc hb
            have hfin : ∀ {s : LazyStream ρ} {t : LazyStream τ} (st : PState σ F), K.Str s t →
                K.Same' (finishParse H s st) (finishParse (H.over raw) t st) := by
              intro s t st h
              unfold finishParse
              simp only [over_uploadComplete, over_count]
              rcases uploadCompleteLoop H (List.range H.count) st.world with ⟨e | u, w⟩ <;> exact .same _ h
            have hex : ∀ (st : PState σ F), K.Same' (match Verif.exhaust bs.producer.flo with
                | (.error e, s) => (.error e, s, st.world)
                | (.ok (), s) => finishParse H s st) (match Verif.exhaust bt.producer.flo with
                | (.error e, s) => (.error e, s, st.world)
                | (.ok (), s) => finishParse (H.over raw) s st) := by
              intro st
              have h3 := K.exhaust hflo
              generalize Verif.exhaust bs.producer.flo = x at h3
              generalize Verif.exhaust bt.producer.flo = y at h3
              cases h3 with
              | fails => exact .fails
              | same x h =>
                rcases x with e | u
                · exact .same _ h
                · exact hfin _ h
            rcases x with e | u
            · have hne : K.Same' (α := MVD PostItem × MVD F) (.error e, bs.producer.flo, st.world)
                (.error e, bt.producer.flo, st.world) := .same _ hflo
              cases e <;> first | exact hne | skip
              rename_i reset
              simp only [over_closeFiles]
              rcases closeFiles H (List.range H.count) st.world with ⟨e | u, w⟩
              · exact .same _ hflo
              · simp only
                split
                · exact hfin _ hflo
                · exact hex { st with world := w }
            · exact hex st
      · exact .same _ h

theorem parseText (C : Codecs) (S : Settings) (f64 : Nat) (m : MultiPart) {s : LazyStream ρ} {t : LazyStream τ} (w : σ)
    (hH : K.Passes H raw) (hx : ¬ Own K.exc) (h : K.Str s t) :
    K.Same' (m.parseText C S H f64 s w) (m.parseText C S (H.over raw) f64 t w) := by
  have hc : K.exc ≠ .inputStreamExhausted := fun h => hx (.inl h)
  have hs : K.exc ≠ .skipFile := fun h => hx (.inr (.inl h))
  have ht : ∀ b, K.exc ≠ .stopUpload b := fun b h => hx (.inr (.inr (.inl ⟨b, h⟩)))
  unfold MultiPart.parseText
  simp only [over_count]
  split
  · split <;> exact .same _ h
  · have h1 := K.rawInputLoop H raw hH { contentLength := m.contentLength, boundary := m.boundary, settings := S }
      (List.range H.count) w h
    generalize Verif.rawInputLoop H _ (List.range H.count) s w = x at h1
    generalize Verif.rawInputLoop (H.over raw) _ (List.range H.count) t w = y at h1
    cases h1 with
    | fails => exact .fails
    | @same x s t h w =>
      rcases x with e | _ | r
      · exact .same _ h
      · simp only
        split
        · exact .same _ h
        · have hb : (K.chunks hc).Str (LazyStream.mk' (⟨s, m.chunkSize⟩ : ChunkIter ρ)) (LazyStream.mk' ⟨t, m.chunkSize⟩) :=
            .mk (show (K.chunks hc).rel _ _ from ⟨h, rfl⟩) _ _ _ _
          rw [(K.chunks hc).str_size hb]
          have h2 := K.textPartsLoop H raw C S f64 (b!"--" ++ m.boundary) hc hs
            (LazyStream.size (LazyStream.mk' (⟨t, m.chunkSize⟩ : ChunkIter τ)) + 1)
            { world := w, counters := List.replicate H.count 0 } hb
          generalize Verif.textPartsLoop C S H f64 _ _ (LazyStream.mk' (⟨s, m.chunkSize⟩ : ChunkIter ρ)) _ = x at h2
          generalize Verif.textPartsLoop C S (H.over raw) f64 _ _ (LazyStream.mk' (⟨t, m.chunkSize⟩ : ChunkIter τ)) _ = y at h2
          cases h2 with
          | @fails bs bst y =>
            have hf : ∀ (s : LazyStream ρ) (w : σ) y, K.Same' (α := MVD PostItem × MVD F) (.error K.exc, s, w) y := fun _ _ _ => .fails
            have hK : (K.chunks hc).exc = K.exc := rfl
            rw [hK]
            clear hb hK
            revert bs
            revert hf ht
            generalize K.exc = e
            intro ht hf bs
            cases e <;> first | exact hf _ _ _ | exact absurd rfl (ht _)
          | @same x bs bt hb st =>
            have hflo := K.flo hc hb
            have hfin : ∀ {s : LazyStream ρ} {t : LazyStream τ} (st : PState σ F), K.Str s t →
                K.Same' (finishParse H s st) (finishParse (H.over raw) t st) := by
              intro s t st h
              unfold finishParse
              simp only [over_uploadComplete, over_count]
              rcases uploadCompleteLoop H (List.range H.count) st.world with ⟨e | u, w⟩ <;> exact .same _ h
            have hex : ∀ (st : PState σ F), K.Same' (match Verif.exhaust bs.producer.flo with
                | (.error e, s) => (.error e, s, st.world)
                | (.ok (), s) => finishParse H s st) (match Verif.exhaust bt.producer.flo with
                | (.error e, s) => (.error e, s, st.world)
                | (.ok (), s) => finishParse (H.over raw) s st) := by
              intro st
              have h3 := K.exhaust hflo
              generalize Verif.exhaust bs.producer.flo = x at h3
              generalize Verif.exhaust bt.producer.flo = y at h3
              cases h3 with
              | fails => exact .fails
              | same x h =>
                rcases x with e | u
                · exact .same _ h
                · exact hfin _ h
            rcases x with e | u
            · have hne : K.Same' (α := MVD PostItem × MVD F) (.error e, bs.producer.flo, st.world)
                (.error e, bt.producer.flo, st.world) := .same _ hflo
              cases e <;> first | exact hne | skip
              rename_i reset
              simp only [over_closeFiles]
              rcases closeFiles H (List.range H.count) st.world with ⟨e | u, w⟩
              · exact .same _ hflo
              · simp only
                split
                · exact hfin _ hflo
                · exact hex { st with world := w }
            · exact hex st
      · exact .same _ h

theorem run (C : Codecs) (S : Settings) (f64 : Nat) (text : Bool) (m : MultiPart) {s : LazyStream ρ} {t : LazyStream τ}
    (w : σ) (hH : K.Passes H raw) (hx : ¬ Own K.exc) (h : K.Str s t) :
    K.Same' (m.run C S H f64 text s w) (m.run C S (H.over raw) f64 text t w) := by
  unfold MultiPart.run
  split
  · exact K.parseText H raw C S f64 m w hH hx h
  · exact K.parse H raw C S f64 m w hH hx h

end

section
variable {ρ τ σ F : Type} [Producer ρ] [Producer τ] (K : Failing ρ τ)

theorem headerLoop (n : Int) : ∀ (fuel : Nat) (acc : Bytes) (st : Bool) {s : LazyStream ρ} {t : LazyStream τ}, K.Str s t →
    K.Same' (Verif.headerLoop n fuel acc st s) (Verif.headerLoop n fuel acc st t)
  | 0, acc, st, s, t, h => .same _ h
  | fuel + 1, acc, st, s, t, h => by
    unfold Verif.headerLoop
    have hx := K.read h (some n)
    generalize s.read (some n) = x at hx
    generalize t.read (some n) = y at hx
    cases hx with
    | fails => exact .fails
    | same x h =>
      rcases x with e | c
      · exact .same _ h
      · simp only
        split
        · exact .same _ h
        · split
          · exact .same _ h
          · exact headerLoop n fuel _ _ h

/-- What `HttpRequest.read` makes of the exception, or the same. -/
inductive SameIO {α : Type} : Res (LazyStream ρ) α → Res (LazyStream τ) α → Prop
  | fails {s : LazyStream ρ} {y : Res (LazyStream τ) α} : SameIO (.error (ioToType K.exc), s) y
  | same (x : Except Exc α) {s : LazyStream ρ} {t : LazyStream τ} (h : K.Str s t) : SameIO (x, s) (x, t)

theorem bodyLoop (limit : Option Int) : ∀ (fuel : Nat) (acc c : Bytes) (n : Nat) {s : LazyStream ρ} {t : LazyStream τ},
    K.Str s t → K.SameIO (Verif.bodyLoop limit fuel acc c n s) (Verif.bodyLoop limit fuel acc c n t)
  | 0, acc, c, n, s, t, h => .same _ h
  | fuel + 1, acc, c, n, s, t, h => by
    unfold Verif.bodyLoop
    split
    · have hx := K.read h (some 65536)
      generalize s.read (some 65536) = x at hx
      generalize t.read (some 65536) = y at hx
      cases hx with
      | fails => exact .fails
      | same x h =>
        rcases x with e | c'
        · exact .same _ h
        · exact bodyLoop limit fuel _ _ _ h
    · split <;> exact .same _ h

end
end Failing

/-- A request with the same attributes and another stream. -/
def Req.onto {ρ τ σ F : Type} (r : Req τ σ F) (s : LazyStream ρ) (h : Option (HandlerOps ρ σ F)) : Req ρ σ F where
  stream := s
  headerParsed := r.headerParsed
  bodyParsed := r.bodyParsed
  post := r.post
  files := r.files
  get := r.get
  info := r.info
  method := r.method
  scheme := r.scheme
  host := r.host
  port := r.port
  path := r.path
  proto := r.proto
  contentType := r.contentType
  post_ := r.post_
  files_ := r.files_
  body_ := r.body_
  handlers := h

section
variable {ρ τ σ F : Type} [Producer ρ] [Producer τ]

omit [Producer ρ] [Producer τ] in
theorem over_applyQuery (C : Codecs) (q : Bytes) (hd : MVD Bytes) (S : Settings) (r : Req τ σ F) (s : LazyStream ρ)
    (h : Option (HandlerOps ρ σ F)) :
    applyQuery C q hd S (r.onto s h) =
      ((applyQuery C q hd S r).1, (applyQuery C q hd S r).2.1, (applyQuery C q hd S r).2.2.onto s h) := by
  unfold applyQuery
  have e : (r.onto s h).info = r.info := rfl
  rw [e]
  rcases r.info with _ | m
  · rfl
  · simp only
    rcases (if q ≠ [] then queryDict C S (some (.b q)) false else queryDict C S none true) with e | d <;> rfl

omit [Producer ρ] [Producer τ] in
theorem over_applyContentType (C : Codecs) (hd : MVD Bytes) (S : Settings) (r : Req τ σ F) (s : LazyStream ρ)
    (h : Option (HandlerOps ρ σ F)) :
    applyContentType C hd S (r.onto s h) =
      ((applyContentType C hd S r).1, (applyContentType C hd S r).2.1, (applyContentType C hd S r).2.2.onto s h) := by
  unfold applyContentType
  rcases hd.get? b!"Content-Type" with _ | vs
  · rfl
  · simp only
    rcases parseHeader C (vs.getLast?.getD []) with e | ⟨ct, ps⟩
    · rfl
    · simp only
      rcases ps.get? b!"charset" with _ | v <;> rfl

omit [Producer ρ] [Producer τ] in
theorem over_applyHeader {E : Env ρ σ F} {E' : Env τ σ F} (hC : E.C = E'.C) (hu : E.up = E'.up) (header : Bytes)
    (S : Settings) (r : Req τ σ F) (s : LazyStream ρ) (h : Option (HandlerOps ρ σ F)) :
    applyHeader E header S (r.onto s h) =
      ((applyHeader E' header S r).1, (applyHeader E' header S r).2.1, (applyHeader E' header S r).2.2.onto s h) := by
  unfold applyHeader
  rw [hu, hC]
  rcases parseRequestHeaders (header ++ b!"\r\n") with e | ⟨line, hd⟩
  · rfl
  · simp only
    rcases parseRequestLine E'.up line with e | l
    · rfl
    · simp only
      rcases hostText l hd with e | ⟨host, hd⟩
      · rfl
      · simp only
        generalize hr : ({ r with scheme := _, host := _, port := _, method := _, path := _, proto := _ } : Req τ σ F) = r1
        have e1 : ({ r.onto s h with
            scheme := some (if l.scheme ≠ [] then Py.lower l.scheme else b!"UNKNOWN"),
            host := some (splitDomainPort host).1, port := some (portOf l.scheme (splitDomainPort host).2),
            method := some l.method, path := some l.path, proto := some l.proto } : Req ρ σ F) = r1.onto s h := by
          rw [← hr]
          rfl
        rw [e1, over_applyContentType]
        rcases applyContentType E'.C hd S r1 with ⟨e | u, S, r2⟩
        · rfl
        · simp only
          exact over_applyQuery ..

namespace Failing
variable (K : Failing ρ τ)

/-- Requests that differ in the stream (and the handlers that were loaded for it). -/
inductive Rq : Req ρ σ F → Req τ σ F → Prop
  | mk (r : Req τ σ F) {s : LazyStream ρ} (hs : K.Str s r.stream) (h : Option (HandlerOps ρ σ F)) : Rq (r.onto s h) r

/-- The exception as the request passes it on. -/
def Passed (e : Exc) : Prop := e = K.exc ∨ e = ioToType K.exc

/-- The exception, or the same result and state. -/
inductive SameR {α β γ : Type} : Except Exc α × β × Req ρ σ F × γ → Except Exc α × β × Req τ σ F × γ → Prop
  | fails {e : Exc} (he : K.Passed e) {b : β} {r : Req ρ σ F} {c : γ} {y : Except Exc α × β × Req τ σ F × γ} :
    SameR (.error e, b, r, c) y
  | same (x : Except Exc α) {b : β} {r : Req ρ σ F} {r' : Req τ σ F} {c : γ} (h : K.Rq r r') : SameR (x, b, r, c) (x, b, r', c)

/-- Settings or handlers left out. -/
def RR {α : Type} (x : Res (Req ρ σ F) α) (y : Res (Req τ σ F) α) : Prop :=
  K.SameR (β := Unit) (γ := Unit) (x.1, (), x.2, ()) (y.1, (), y.2, ())

/-- The environments differ in what their handlers read from. -/
structure Envs (E : Env ρ σ F) (E' : Env τ σ F) : Prop where
  C : E.C = E'.C
  up : E.up = E'.up
  fuel64 : E.fuel64 = E'.fuel64
  load : ∀ w, (∃ e w', E.load w = (.error e, w') ∧ E'.load w = (.error e, w')) ∨
    ∃ H raw w', E.load w = (.ok H, w') ∧ E'.load w = (.ok (HandlerOps.over H raw), w') ∧ K.Passes H raw

theorem parseRequestHeader {E : Env ρ σ F} {E' : Env τ σ F} (hE : K.Envs E E') (S : Settings) {r : Req ρ σ F}
    {r' : Req τ σ F} (h : K.Rq r r') :
    K.SameR (γ := Unit) ((Verif.parseRequestHeader E S r).1, (Verif.parseRequestHeader E S r).2.1,
        (Verif.parseRequestHeader E S r).2.2, ())
      ((Verif.parseRequestHeader E' S r').1, (Verif.parseRequestHeader E' S r').2.1,
        (Verif.parseRequestHeader E' S r').2.2, ()) := by
  cases h with
  | @mk r s hs hh =>
  unfold Verif.parseRequestHeader
  have e1 : (r'.onto s hh).headerParsed = r'.headerParsed := rfl
  have e2 : (r'.onto s hh).stream = s := rfl
  rw [e1, e2]
  split
  · exact .same _ ⟨_, hs, _⟩
  · rw [K.str_size hs]
    have hx := K.headerLoop S.maxHeaderSize (r'.stream.size + 2) [] false hs
    generalize Verif.headerLoop S.maxHeaderSize (r'.stream.size + 2) [] false s = x at hx
    generalize Verif.headerLoop S.maxHeaderSize (r'.stream.size + 2) [] false r'.stream = y at hx
    cases hx with
    | fails => exact .fails (.inl rfl)
    | @same x s t h b =>
      rcases x with e | ⟨header, rest⟩
      · exact .same _ (.mk { r' with stream := t, headerParsed := b } h hh)
      · simp only
        have hx := K.unget rest h
        generalize s.unget rest = x at hx
        generalize t.unget rest = y at hx
        cases hx with
        | fails => exact .fails (.inl rfl)
        | @same x s t h =>
          rcases x with e | u
          · exact .same _ (.mk { r' with stream := t, headerParsed := true } h hh)
          · simp only
            have e3 : ({ r'.onto s hh with headerParsed := true } : Req ρ σ F) =
              ({ r' with stream := t, headerParsed := true } : Req τ σ F).onto s hh := rfl
            have := over_applyHeader hE.C hE.up header S ({ r' with stream := t, headerParsed := true } : Req τ σ F) s hh
            have e4 := (applyHeader_frame E' header S ({ r' with stream := t, headerParsed := true } : Req τ σ F)).1.stream
            show K.SameR ((applyHeader E header S (({ r' with stream := t, headerParsed := true } : Req τ σ F).onto s hh)).1,
              (applyHeader E header S (({ r' with stream := t, headerParsed := true } : Req τ σ F).onto s hh)).2.1,
              (applyHeader E header S (({ r' with stream := t, headerParsed := true } : Req τ σ F).onto s hh)).2.2, ()) _
            rw [this]
            refine .same _ (.mk _ ?_ hh)
            rw [e4]
            exact h

theorem readBody (S : Settings) {r : Req ρ σ F} {r' : Req τ σ F} (h : K.Rq r r') :
    K.RR (Verif.readBody S r) (Verif.readBody S r') := by
  cases h with
  | @mk _ s hs hh =>
  unfold Verif.readBody
  have e2 : (r'.onto s hh).stream = s := rfl
  rw [e2]
  have hx := K.read hs (some 65536)
  generalize s.read (some 65536) = x at hx
  generalize r'.stream.read (some 65536) = y at hx
  cases hx with
  | fails => exact .fails (.inr rfl)
  | @same x s t h =>
    rcases x with e | c
    · exact .same _ (.mk { r' with stream := t } h hh)
    · simp only
      rw [K.str_size h]
      have hx := K.bodyLoop S.dataMaxMemory (t.size + 2) [] c c.length h
      generalize Verif.bodyLoop S.dataMaxMemory (t.size + 2) [] c c.length s = x at hx
      generalize Verif.bodyLoop S.dataMaxMemory (t.size + 2) [] c c.length t = y at hx
      cases hx with
      | fails => exact .fails (.inr rfl)
      | @same x s t h =>
        rcases x with e | b
        · exact .same _ (.mk { r' with stream := t } h hh)
        · exact .same _ (.mk { r' with stream := t, body_ := some (.b b) } h hh)

theorem bodyCore (S : Settings) {r : Req ρ σ F} {r' : Req τ σ F} (h : K.Rq r r') :
    K.RR (Verif.bodyCore S r) (Verif.bodyCore S r') := by
  have h0 := h
  cases h with
  | @mk _ s hs hh =>
  unfold Verif.bodyCore
  have e1 : (r'.onto s hh).bodyParsed = r'.bodyParsed := rfl
  have e2 : (r'.onto s hh).contentType = r'.contentType := rfl
  have e3 : (r'.onto s hh).body_ = r'.body_ := rfl
  rw [e1, e2, e3]
  split
  · exact .same _ h0
  · split
    · exact .same _ h0
    · split
      · exact .same _ h0
      · exact K.readBody S h0

theorem parseFileUpload {E : Env ρ σ F} {E' : Env τ σ F} (hE : K.Envs E E') (hx : ¬ Own K.exc) (S : Settings)
    (H : HandlerOps ρ σ F)
    (raw : Nat → RawArgs → LazyStream τ → σ → Except Exc (Option (MVD PostItem × MVD F)) × LazyStream τ × σ)
    (hH : K.Passes H raw) {r : Req ρ σ F} {r' : Req τ σ F} (h : K.Rq r r') (w : σ) :
    K.SameR (β := Unit) ((Verif.parseFileUpload E S H r w).1, (), (Verif.parseFileUpload E S H r w).2)
      ((Verif.parseFileUpload E' S (H.over raw) r' w).1, (), (Verif.parseFileUpload E' S (H.over raw) r' w).2) := by
  cases h with
  | @mk _ s hs hh =>
  unfold Verif.parseFileUpload
  have e1 : (r'.onto s hh).info = r'.info := rfl
  rw [e1, hE.C, hE.fuel64]
  rcases r'.info.bind (·.headers) with _ | hd
  · exact .same _ (.mk r' hs hh)
  · simp only [over_count]
    have go : ∀ (H : HandlerOps ρ σ F)
        (raw : Nat → RawArgs → LazyStream τ → σ → Except Exc (Option (MVD PostItem × MVD F)) × LazyStream τ × σ)
        (hH : K.Passes H raw) (w : σ) (x : Except Exc (MVD PostItem × MVD F) × Req ρ σ F × σ)
        (y : Except Exc (MVD PostItem × MVD F) × Req τ σ F × σ),
        x = (match MultiPart.create E'.C H ((hd.get? b!"Content-Type").bind List.getLast?)
            ((hd.get? b!"Content-Length").bind List.getLast?) with
          | .error e => (.error e, { r'.onto s hh with handlers := some H }, w)
          | .ok m =>
            match m.run E'.C S H E'.fuel64 (unicodeBoundary E'.C ((hd.get? b!"Content-Type").bind List.getLast?)) s w with
            | (x, s, w) => (x, { r'.onto s hh with handlers := some H }, w)) →
        y = (match MultiPart.create E'.C (H.over raw) ((hd.get? b!"Content-Type").bind List.getLast?)
            ((hd.get? b!"Content-Length").bind List.getLast?) with
          | .error e => (.error e, { r' with handlers := some (H.over raw) }, w)
          | .ok m =>
            match m.run E'.C S (H.over raw) E'.fuel64
                (unicodeBoundary E'.C ((hd.get? b!"Content-Type").bind List.getLast?)) r'.stream w with
            | (x, s, w) => (x, { r' with handlers := some (H.over raw), stream := s }, w)) →
        K.SameR (β := Unit) (x.1, (), x.2) (y.1, (), y.2) := by
      intro H raw hH w x y hx1 hy1
      have ec : MultiPart.create E'.C (H.over raw) ((hd.get? b!"Content-Type").bind List.getLast?)
          ((hd.get? b!"Content-Length").bind List.getLast?) = MultiPart.create E'.C H
          ((hd.get? b!"Content-Type").bind List.getLast?) ((hd.get? b!"Content-Length").bind List.getLast?) := rfl
      rw [ec] at hy1
      generalize MultiPart.create E'.C H ((hd.get? b!"Content-Type").bind List.getLast?)
          ((hd.get? b!"Content-Length").bind List.getLast?) = z at hx1 hy1
      rcases z with e | m
      · rw [hx1, hy1]
        exact .same _ (.mk { r' with handlers := some (H.over raw) } hs (some H))
      · have hz := K.run H raw E'.C S E'.fuel64
          (unicodeBoundary E'.C ((hd.get? b!"Content-Type").bind List.getLast?)) m w hH hx hs
        simp only at hx1 hy1
        generalize m.run E'.C S H E'.fuel64 _ s w = x1 at hz hx1
        generalize m.run E'.C S (H.over raw) E'.fuel64 _ r'.stream w = y1 at hz hy1
        rw [hx1, hy1]
        cases hz with
        | fails => exact .fails (.inl rfl)
        | @same x s t h w => exact .same _ (.mk { r' with handlers := some (H.over raw), stream := t } h (some H))
    by_cases hc : H.count = 0
    · simp only [hc, if_true]
      rcases hE.load w with ⟨e, w', h1, h2⟩ | ⟨H, raw, w', h1, h2, hH⟩
      · rw [h1, h2]
        exact .same _ (.mk r' hs hh)
      · rw [h1, h2]
        exact go H raw hH w' _ _ rfl rfl
    · simp only [hc, if_false]
      exact go H raw hH w _ _ rfl rfl

theorem parseByType {E : Env ρ σ F} {E' : Env τ σ F} (hE : K.Envs E E') (hx : ¬ Own K.exc) (S : Settings)
    (H : HandlerOps ρ σ F)
    (raw : Nat → RawArgs → LazyStream τ → σ → Except Exc (Option (MVD PostItem × MVD F)) × LazyStream τ × σ)
    (hH : K.Passes H raw) {r : Req ρ σ F} {r' : Req τ σ F} (h : K.Rq r r') (w : σ) :
    K.SameR (β := Unit) ((Verif.parseByType E S H r w).1, (), (Verif.parseByType E S H r w).2)
      ((Verif.parseByType E' S (H.over raw) r' w).1, (), (Verif.parseByType E' S (H.over raw) r' w).2) := by
  have h0 := h
  have h1 := K.parseFileUpload hE hx S H raw hH h w
  have h2 := K.bodyCore S h
  cases h with
  | @mk _ s hs hh =>
  unfold Verif.parseByType
  have e1 : (r'.onto s hh).contentType = r'.contentType := rfl
  rw [e1, hE.C]
  rcases r'.contentType with _ | ct
  · exact .same _ h0
  · simp only
    split
    · generalize Verif.parseFileUpload E S H (r'.onto s hh) w = z at h1 ⊢
      obtain ⟨x, rr, ww⟩ := z
      generalize Verif.parseFileUpload E' S (H.over raw) r' w = z at h1 ⊢
      obtain ⟨x', rr', ww'⟩ := z
      simp only at h1
      cases h1 with
      | @fails e he =>
        have hne : e ≠ .multiPartParserError := by
          rcases he with rfl | he
          · exact fun hh => hx (hh ▸ .inr (.inr (.inr rfl)))
          · intro hh
            rw [he] at hh
            generalize hk : K.exc = k at hh hx
            cases k <;> first | exact hx (.inr (.inr (.inr rfl))) | cases hh
        cases e <;> first | exact absurd rfl hne | exact .fails he
      | same x h =>
        cases h with
        | @mk _ s hs hh =>
        rcases x with e | ⟨p, f⟩
        · cases e <;> first | exact .same _ (.mk rr' hs hh) | skip
          simp only [markError]
          rcases queryDict E'.C S none false with e | q
          · exact .same _ (.mk rr' hs hh)
          · exact .same _ (.mk { rr' with post_ := some (.query q), files_ := some [] } hs hh)
        · exact .same _ (.mk { rr' with post_ := some (.form p), files_ := some f } hs hh)
    · split
      · generalize Verif.bodyCore S (r'.onto s hh) = z at h2 ⊢
        obtain ⟨x, rr⟩ := z
        generalize Verif.bodyCore S r' = z at h2 ⊢
        obtain ⟨x', rr'⟩ := z
        unfold RR at h2
        simp only at h2
        cases h2 with
        | fails he => exact .fails he
        | same x h =>
          cases h with
          | @mk _ s hs hh =>
          rcases x with e | b
          · exact .same _ (.mk rr' hs hh)
          · simp only
            rcases queryDict E'.C S (some b) false with e | q
            · exact .same _ (.mk rr' hs hh)
            · exact .same _ (.mk { rr' with post_ := some (.query q), files_ := some [] } hs hh)
      · rcases queryDict E'.C S none false with e | q
        · exact .same _ h0
        · exact .same _ (.mk { r' with contentType := some ct, post_ := some (.query q), files_ := some [] } hs hh)

theorem finishBody (C : Codecs) (S : Settings) {r : Req ρ σ F} {r' : Req τ σ F} (h : K.Rq r r') :
    K.RR (Verif.finishBody C S r) (Verif.finishBody C S r') := by
  have h2 := K.bodyCore S h
  unfold Verif.finishBody
  generalize Verif.bodyCore S r = z at h2 ⊢
  obtain ⟨x, rr⟩ := z
  generalize Verif.bodyCore S r' = z at h2 ⊢
  obtain ⟨x', rr'⟩ := z
  unfold RR at h2
  simp only at h2
  cases h2 with
  | fails he => exact .fails he
  | same x h =>
    cases h with
    | @mk _ s hs hh =>
    rcases x with e | b
    · exact .same _ (.mk rr' hs hh)
    · simp only
      rcases decodeBody C S b with e | u
      · exact .same _ (.mk rr' hs hh)
      · exact .same _ (.mk { rr' with body_ := some (.u u), bodyParsed := true, post := rr'.post_, files := rr'.files_ }
          hs hh)

theorem parseBodyStream {E : Env ρ σ F} {E' : Env τ σ F} (hE : K.Envs E E') (hx : ¬ Own K.exc) (S : Settings)
    (H : HandlerOps ρ σ F)
    (raw : Nat → RawArgs → LazyStream τ → σ → Except Exc (Option (MVD PostItem × MVD F)) × LazyStream τ × σ)
    (hH : K.Passes H raw) {r : Req ρ σ F} {r' : Req τ σ F} (h : K.Rq r r') (w : σ) :
    K.SameR (β := Unit) ((Verif.parseBodyStream E S H r w).1, (), (Verif.parseBodyStream E S H r w).2)
      ((Verif.parseBodyStream E' S (H.over raw) r' w).1, (), (Verif.parseBodyStream E' S (H.over raw) r' w).2) := by
  cases h with
  | @mk _ s hs hh =>
  unfold Verif.parseBodyStream
  have e2 : (r'.onto s hh).stream = s := rfl
  rw [e2]
  have h1 := K.read hs (some 1)
  generalize s.read (some 1) = x at h1
  generalize r'.stream.read (some 1) = y at h1
  cases h1 with
  | fails => exact .fails (.inl rfl)
  | @same x s t h =>
    rcases x with e | data
    · exact .same _ (.mk { r' with stream := t } h hh)
    · simp only [hE.C]
      split
      · rcases queryDict E'.C S none false with e | q
        · exact .same _ (.mk { r' with stream := t } h hh)
        · exact .same _ (.mk { r' with stream := t, post_ := some (.query q), files_ := some [] } h hh)
      · have h1 := K.unget data h
        generalize s.unget data = x at h1
        generalize t.unget data = y at h1
        cases h1 with
        | fails => exact .fails (.inl rfl)
        | @same x s t h =>
          rcases x with e | u
          · exact .same _ (.mk { r' with stream := t } h hh)
          · simp only
            have h1 := K.parseByType hE hx S H raw hH (.mk { r' with stream := t } h hh) w
            have e3 : ({ r'.onto s hh with stream := s } : Req ρ σ F) =
              ({ r' with stream := t } : Req τ σ F).onto s hh := rfl
            generalize hr1 : ({ r' with stream := t } : Req τ σ F) = r1 at h1
            generalize hr2 : r1.onto s hh = r2 at h1
            have e4 : ∀ x, ({ r'.onto x hh with stream := s } : Req ρ σ F) = r2 := by
              intro x
              rw [← hr2, ← hr1]
              rfl
            show K.SameR (β := Unit) (Prod.fst (match Verif.parseByType E S H ({ r'.onto _ hh with stream := s } : Req ρ σ F) w with
              | (.error e, r, w) => ((.error e : Except Exc Unit), r, w)
              | (.ok (), r, w) =>
                match Verif.finishBody E'.C S r with
                | (x, r) => (x, r, w)), (), Prod.snd (match Verif.parseByType E S H ({ r'.onto _ hh with stream := s } : Req ρ σ F) w with
              | (.error e, r, w) => ((.error e : Except Exc Unit), r, w)
              | (.ok (), r, w) =>
                match Verif.finishBody E'.C S r with
                | (x, r) => (x, r, w))) _
            rw [e4]
            generalize Verif.parseByType E S H r2 w = z at h1 ⊢
            obtain ⟨x, rr, ww⟩ := z
            generalize Verif.parseByType E' S (H.over raw) r1 w = z at h1 ⊢
            obtain ⟨x', rr', ww'⟩ := z
            simp only at h1
            cases h1 with
            | fails he => exact .fails he
            | same x h =>
              rcases x with e | u
              · exact .same _ h
              · simp only
                have h2 := K.finishBody E'.C S h
                generalize Verif.finishBody E'.C S rr = z at h2 ⊢
                obtain ⟨x, rr2⟩ := z
                generalize Verif.finishBody E'.C S rr' = z at h2 ⊢
                obtain ⟨x', rr2'⟩ := z
                unfold RR at h2
                simp only at h2
                cases h2 with
                | fails he => exact .fails he
                | same x h => exact .same _ h

theorem parseRequestBody {E : Env ρ σ F} {E' : Env τ σ F} (hE : K.Envs E E') (hx : ¬ Own K.exc) (S : Settings)
    {r : Req ρ σ F} {r' : Req τ σ F} (h : K.Rq r r') (w : σ) :
    K.SameR (β := Unit) ((Verif.parseRequestBody E S r w).1, (), (Verif.parseRequestBody E S r w).2)
      ((Verif.parseRequestBody E' S r' w).1, (), (Verif.parseRequestBody E' S r' w).2) := by
  have h0 := h
  cases h with
  | @mk _ s hs hh =>
  unfold Verif.parseRequestBody
  have e1 : (r'.onto s hh).bodyParsed = r'.bodyParsed := rfl
  rw [e1]
  split
  · exact .same _ h0
  · rcases hE.load w with ⟨e, w', h1, h2⟩ | ⟨H, raw, w', h1, h2, hH⟩
    · rw [h1, h2]
      exact .same _ h0
    · rw [h1, h2]
      simp only [hE.C]
      have e2 : (r'.onto s hh).headerParsed = r'.headerParsed := rfl
      rw [e2]
      split
      · simp only [markError]
        rcases queryDict E'.C S none false with e | q
        · exact .same _ (.mk { r' with handlers := some (H.over raw) } hs (some H))
        · exact .same _ (.mk { r' with handlers := some (H.over raw), post_ := some (.query q), files_ := some [] } hs
            (some H))
      · exact K.parseBodyStream hE hx S H raw hH (.mk { r' with handlers := some (H.over raw) } hs (some H)) w'

theorem parseRequest {E : Env ρ σ F} {E' : Env τ σ F} (hE : K.Envs E E') (hx : ¬ Own K.exc) (S : Settings)
    {r : Req ρ σ F} {r' : Req τ σ F} (h : K.Rq r r') (w : σ) :
    K.SameR (Verif.parseRequest E S r w) (Verif.parseRequest E' S r' w) := by
  unfold Verif.parseRequest
  have h1 := K.parseRequestHeader hE S h
  generalize Verif.parseRequestHeader E S r = z at h1 ⊢
  obtain ⟨x, SS, rr⟩ := z
  generalize Verif.parseRequestHeader E' S r' = z at h1 ⊢
  obtain ⟨x', SS', rr'⟩ := z
  simp only at h1
  cases h1 with
  | fails he => exact .fails he
  | same x h =>
    rcases x with e | u
    · exact .same _ h
    · simp only
      have h2 := K.parseRequestBody hE hx SS h w
      generalize Verif.parseRequestBody E SS rr w = z at h2 ⊢
      obtain ⟨x, rr2, ww⟩ := z
      generalize Verif.parseRequestBody E' SS rr' w = z at h2 ⊢
      obtain ⟨x', rr2', ww'⟩ := z
      simp only at h2
      cases h2 with
      | fails he => exact .fails he
      | same x h => exact .same _ h

end Failing

/-- A producer that never ends properly: whenever it is asked for more it gives more or raises. -/
def NoEnd (ρ : Type) [Producer ρ] : Prop := ∀ p : ρ, (Producer.next p).1 ≠ .ok none

namespace NoEnd

theorem next (hn : NoEnd ρ) (s : LazyStream ρ) : s.next.1 ≠ .ok none := by
  unfold LazyStream.next
  split
  · simp
  · have h := hn s.producer
    generalize Producer.next s.producer = y at h
    rcases y with ⟨e | _ | c, p⟩ <;> simp_all

theorem readLoop (hn : NoEnd ρ) : ∀ (fuel n : Nat) (acc : Bytes) (s : LazyStream ρ) {out : Bytes},
    (LazyStream.readLoop fuel n acc s).1 = .ok out → out.length = acc.length + n
  | 0, n, acc, s, out, h => by
    unfold LazyStream.readLoop at h
    split at h
    · cases h
      omega
    · cases h
  | fuel + 1, n, acc, s, out, h => by
    unfold LazyStream.readLoop at h
    split at h
    · cases h
      omega
    · have h1 := hn.next s
      generalize s.next = y at h h1
      rcases y with ⟨e | _ | c, s⟩
      · cases h
      · exact absurd rfl h1
      · simp only at h
        generalize s.unget (c.drop n) = y at h
        rcases y with ⟨e | u, s⟩
        · cases h
        · have := readLoop hn fuel _ _ s h
          simp only [List.length_append, List.length_take] at this
          omega

/-- Then reading gives as many bytes as one asked for, or fails. -/
theorem read (hn : NoEnd ρ) (s : LazyStream ρ) (n : Nat) {out : Bytes} (h : (s.read (some n)).1 = .ok out) :
    out.length = n := by
  unfold LazyStream.read at h
  simp only [Int.not_ofNat_neg, if_false, Int.toNat_natCast] at h
  have := hn.readLoop _ _ _ _ h
  simpa using this

theorem bodyLoop (hn : NoEnd ρ) (limit : Option Int) : ∀ (fuel : Nat) (acc c : Bytes) (n : Nat) (s : LazyStream ρ),
    c ≠ [] → ∀ b, (Verif.bodyLoop limit fuel acc c n s).1 ≠ .ok b
  | 0, _, _, _, _, _, _ => by
    unfold Verif.bodyLoop
    simp
  | fuel + 1, acc, c, n, s, hc, b => by
    unfold Verif.bodyLoop
    split
    · have h1 := fun out => hn.read s 65536 (out := out)
      generalize hy : s.read (some 65536) = y
      rw [show ((65536 : Nat) : Int) = 65536 from rfl, hy] at h1
      rcases y with ⟨e | c', s⟩
      · simp
      · simp only
        have := h1 c' rfl
        refine bodyLoop hn limit fuel _ _ _ _ ?_ b
        rintro rfl
        cases this
    · rename_i h
      split
      · simp
      · rename_i h'
        exact absurd ⟨by simpa using h', hc⟩ h

theorem readBody (hn : NoEnd ρ) (S : Settings) (r : Req ρ σ F) (b : PyStr) : (Verif.readBody S r).1 ≠ .ok b := by
  unfold Verif.readBody
  have h1 := fun out => hn.read r.stream 65536 (out := out)
  generalize hy : r.stream.read (some 65536) = y
  rw [show ((65536 : Nat) : Int) = 65536 from rfl, hy] at h1
  rcases y with ⟨e | c, s⟩
  · simp
  · simp only
    have h2 := hn.bodyLoop S.dataMaxMemory (s.size + 2) [] c c.length s (by
      rintro rfl
      cases h1 _ rfl)
    generalize Verif.bodyLoop S.dataMaxMemory (s.size + 2) [] c c.length s = y at h2
    rcases y with ⟨e | c, s⟩
    · simp
    · exact absurd rfl (h2 c)

theorem bodyCore (hn : NoEnd ρ) (S : Settings) (r : Req ρ σ F) (hb : r.body_ = none) (b : PyStr) :
    (Verif.bodyCore S r).1 ≠ .ok b := by
  unfold Verif.bodyCore
  split
  · simp
  · split
    · simp
    · rw [hb]
      exact hn.readBody S r b

theorem finishBody (hn : NoEnd ρ) (C : Codecs) (S : Settings) (r : Req ρ σ F) (hb : r.body_ = none) (u : Unit) :
    (Verif.finishBody C S r).1 ≠ .ok u := by
  unfold Verif.finishBody
  have h1 := hn.bodyCore S r hb
  generalize Verif.bodyCore S r = y at h1
  rcases y with ⟨e | b, r⟩
  · simp
  · exact absurd rfl (h1 b)

theorem parseFileUpload_body (E : Env ρ σ F) (S : Settings) (H : HandlerOps ρ σ F) (r : Req ρ σ F) (w : σ) :
    (Verif.parseFileUpload E S H r w).2.1.body_ = r.body_ := by
  unfold Verif.parseFileUpload
  rcases r.info.bind (·.headers) with _ | hd
  · rfl
  · simp only
    rcases (if H.count = 0 then E.load w else (.ok H, w)) with ⟨e | H, w⟩
    · rfl
    · simp only
      rcases MultiPart.create E.C H ((hd.get? b!"Content-Type").bind List.getLast?)
        ((hd.get? b!"Content-Length").bind List.getLast?) with e | m <;> rfl

theorem parseByType_body (hn : NoEnd ρ) (E : Env ρ σ F) (S : Settings) (H : HandlerOps ρ σ F) (r : Req ρ σ F) (w : σ)
    (hb : r.body_ = none) (h : (Verif.parseByType E S H r w).1 = .ok ()) : (Verif.parseByType E S H r w).2.1.body_ = none := by
  unfold Verif.parseByType at h ⊢
  generalize r.contentType = o at h ⊢
  rcases o with _ | ct
  · exact hb
  · simp only at h ⊢
    split at h
    · rename_i hc
      rw [if_pos hc]
      have h1 := parseFileUpload_body E S H r w
      generalize Verif.parseFileUpload E S H r w = y at h h1
      rcases y with ⟨e | ⟨p, f⟩, r, w⟩
      · cases e <;> cases h
      · exact h1.trans hb
    · rename_i hc
      rw [if_neg hc]
      split at h
      · rename_i hc
        rw [if_pos hc]
        have h1 := hn.bodyCore S r hb
        generalize Verif.bodyCore S r = y at h h1
        rcases y with ⟨e | b, r⟩
        · cases h
        · exact absurd rfl (h1 b)
      · rename_i hc
        rw [if_neg hc]
        rcases queryDict E.C S none false with e | q <;> exact hb

theorem parseBodyStream (hn : NoEnd ρ) (E : Env ρ σ F) (S : Settings) (H : HandlerOps ρ σ F) (r : Req ρ σ F) (w : σ)
    (hb : r.body_ = none) : (Verif.parseBodyStream E S H r w).1 ≠ .ok () := by
  unfold Verif.parseBodyStream
  have h1 := fun out => hn.read r.stream 1 (out := out)
  generalize hy : r.stream.read (some 1) = y
  rw [show ((1 : Nat) : Int) = 1 from rfl, hy] at h1
  rcases y with ⟨e | data, s⟩
  · simp
  · simp only
    split
    · rename_i hd
      have := h1 data rfl
      rw [hd] at this
      cases this
    · rcases s.unget data with ⟨e | u, s⟩
      · simp
      · simp only
        have h2 := hn.parseByType_body E S H { r with stream := s } w hb
        generalize Verif.parseByType E S H { r with stream := s } w = y at h2
        rcases y with ⟨e | u, r, w⟩
        · simp
        · have h3 := hn.finishBody E.C S r (h2 rfl) ()
          simpa using h3

end NoEnd

/-- Whatever the handlers and the settings are: a request whose stream does not come to its end is not reported as
parsed. -/
theorem C124_never (hn : NoEnd ρ) (E : Env ρ σ F) (S : Settings) (r : Req ρ σ F) (w : σ) (hp : r.bodyParsed = false)
    (hb : r.body_ = none) : (parseRequest E S r w).1 ≠ .ok () := by
  unfold parseRequest
  obtain ⟨f1, -, -, f2, -⟩ := parseRequestHeader_frame E S r
  generalize parseRequestHeader E S r = y at f1 f2
  rcases y with ⟨e | u, S, r'⟩
  · simp
  · simp only at f1 f2 ⊢
    have hb' : r'.body_ = none := by rcases f2 with h | h <;> simp_all
    unfold parseRequestBody
    rw [f1, hp]
    simp only [Bool.false_eq_true, if_false]
    rcases E.load w with ⟨e | H, w⟩
    · simp
    · simp only
      split
      · simp
      · exact hn.parseBodyStream E S H _ w hb'

/-- Nor is there a body. -/
theorem C124_body (hn : NoEnd ρ) (E : Env ρ σ F) (S : Settings) (r : Req ρ σ F) (hb : r.body_ = none) (b : PyStr) :
    (body E S r).1 ≠ .ok b := by
  unfold body
  split
  · have := hn.bodyCore S r hb b
    exact this
  · obtain ⟨-, -, -, f2, -⟩ := parseRequestHeader_frame E S r
    generalize parseRequestHeader E S r = y at f2
    rcases y with ⟨e | u, S, r'⟩
    · simp
    · have hb' : r'.body_ = none := by rcases f2 with h | h <;> simp_all
      have := hn.bodyCore S r' hb' b
      exact this

end

/-- A file-like object that gives `chunks` and then raises `exc` whenever it is asked for more. -/
structure Breaking where
  chunks : List Bytes
  exc : Exc
  deriving Repr, DecidableEq

instance : Producer Breaking where
  next s := match s.chunks with
    | [] => (.error s.exc, s)
    | c :: cs => (.ok (some c), ⟨cs, s.exc⟩)
  size s := (s.chunks.map (fun c => c.length + 1)).sum

theorem Breaking.noEnd : NoEnd Breaking := by
  rintro ⟨_ | ⟨c, cs⟩, e⟩ <;> simp [Producer.next]

/-- It does the same as the file-like object that ends there, unless it raises the exception. -/
def Breaking.failing (e : Exc) : Failing Breaking Source where
  rel p q := p.chunks = q.chunks ∧ p.exc = e
  exc := e
  size := by
    rintro ⟨cs, e'⟩ ⟨cs'⟩ ⟨h, -⟩
    simp only at h
    rw [h]
    rfl
  step := by
    rintro ⟨cs, e'⟩ ⟨cs'⟩ ⟨h, h'⟩
    simp only at h h'
    subst h h'
    rcases cs with _ | ⟨c, cs⟩
    · exact .inl rfl
    · exact .inr ⟨rfl, rfl, rfl⟩

/-- The same request on a stream that breaks where this one ends. -/
def Req.breaking {σ F : Type} (e : Exc) (r : Req Source σ F) : Req Breaking σ F :=
  r.onto ⟨⟨r.stream.producer.chunks, e⟩, r.stream.leftover, r.stream.length, r.stream.position, r.stream.history⟩ none

theorem Breaking.envs (e : Exc) (C : Codecs) (up : List UStr) (os : Os) (mods : Modules (Except Exc Builtin))
    (names : List Bytes) (n : Nat) :
    (Breaking.failing e).Envs (namedEnv Breaking C up os mods names n) (namedEnv Source C up os mods names n) where
  C := rfl
  up := rfl
  fuel64 := rfl
  load w := by
    unfold namedEnv
    simp only
    rcases loadHandlers mods names with e | hs
    · exact .inl ⟨_, _, rfl, rfl⟩
    · refine .inr ⟨_, (builtinOps Source os hs.length).rawInput, _, rfl, rfl, ?_⟩
      intro i a s t w h
      unfold builtinOps
      simp only
      rcases w.on i (fun b h => (.ok (), b.rawInput a, h)) with ⟨e | u, w⟩ <;> exact .same _ h

/-- A stream that raises an exception while it is read: `parse()` raises that exception (an `IOError` met while the body
is collected is a `TypeError` then), or it does what it does on the stream that ends there, with the same effects.  The
exceptions that the library's own parts use to talk to each other are left out. -/
theorem C124_same (C : Codecs) (up : List UStr) (os : Os) (mods : Modules (Except Exc Builtin)) (names : List Bytes)
    (n : Nat) (S : Settings) (r : Req Source BWorld Uploaded) (w : BWorld) (e : Exc) (he : ¬ Failing.Own e) :
    let x := parseRequest (namedEnv Breaking C up os mods names n) S (r.breaking e) w
    let y := parseRequest (namedEnv Source C up os mods names n) S r w
    x.1 = .error e ∨ x.1 = .error (ioToType e) ∨
      (x.1 = y.1 ∧ x.2.1 = y.2.1 ∧ x.2.2.2 = y.2.2.2 ∧ ∃ s h, x.2.2.1 = y.2.2.1.onto s h) := by
  have hr : (Breaking.failing e).Rq (r.breaking e) r := by
    refine .mk r ?_ none
    obtain ⟨⟨⟨cs⟩, l, n, p, hi⟩⟩ := r
    exact .mk (show (Breaking.failing e).rel _ _ from ⟨rfl, rfl⟩) _ _ _ _
  have h := (Breaking.failing e).parseRequest (Breaking.envs e C up os mods names n) he S hr w
  simp only
  generalize parseRequest (namedEnv Breaking C up os mods names n) S (r.breaking e) w = x at h
  generalize parseRequest (namedEnv Source C up os mods names n) S r w = y at h
  cases h with
  | fails he =>
    rcases he with h | h
    · exact .inl (by rw [h]; rfl)
    · exact .inr (.inl (by rw [h]; rfl))
  | same x h =>
    refine .inr (.inr ⟨rfl, rfl, rfl, ?_⟩)
    cases h with
    | @mk _ s hs hh => exact ⟨s, hh, rfl⟩

/-- So if the stream that ends there can be parsed, `parse()` raises the exception of the stream that breaks there. -/
theorem C124_raises (C : Codecs) (up : List UStr) (os : Os) (mods : Modules (Except Exc Builtin)) (names : List Bytes)
    (n : Nat) (S : Settings) (r : Req Source BWorld Uploaded) (w : BWorld) (e : Exc) (he : ¬ Failing.Own e)
    (hp : r.bodyParsed = false) (hb : r.body_ = none)
    (hy : (parseRequest (namedEnv Source C up os mods names n) S r w).1 = .ok ()) :
    (parseRequest (namedEnv Breaking C up os mods names n) S (r.breaking e) w).1 = .error e ∨
    (parseRequest (namedEnv Breaking C up os mods names n) S (r.breaking e) w).1 = .error (ioToType e) := by
  have h := C124_same C up os mods names n S r w e he
  have h' := C124_never Breaking.noEnd (namedEnv Breaking C up os mods names n) S (r.breaking e) w hp hb
  simp only at h
  rcases h with h | h | ⟨h, -⟩
  · exact .inl h
  · exact .inr h
  · rw [hy] at h
    exact absurd h h'

private def sampleEnv (ρ : Type) : Env ρ BWorld Uploaded := namedEnv ρ pyCodecs [] goodOs sampleModules defaultHandlers 0

private def formText : Bytes := b!"POST http://h/ HTTP/1.1\r\nContent-Type: application/x-www-form-urlencoded\r\n\r\na=1&b"

private def raised {α : Type} : Except Exc α → Option Exc
  | .ok _ => none
  | .error e => some e

private def onText (t : Bytes) : Req Source BWorld Uploaded := freshReq ⟨[t]⟩

example := C124_raises pyCodecs [] goodOs sampleModules defaultHandlers 0 {} (onText formText) ⟨[], []⟩ .ioError
  (by simp [Failing.Own]) rfl rfl

/-- The stream that ends there can be parsed; an `IOError` in the body is a `TypeError`, other exceptions are kept. -/
example : (parseRequest (sampleEnv Source) {} (onText formText) ⟨[], []⟩).1.toOption = some () ∧
    raised (parseRequest (sampleEnv Breaking) {} ((onText formText).breaking .ioError) ⟨[], []⟩).1 = some .typeError ∧
    raised (parseRequest (sampleEnv Breaking) {} ((onText formText).breaking .osError) ⟨[], []⟩).1 = some .osError := by
  refine ⟨?_, ?_, ?_⟩ <;> decide +kernel

/-- In the header, and in a form with files, the `IOError` is kept. -/
example : raised (parseRequest (sampleEnv Breaking) {} ((onText (formText.take 40)).breaking .ioError) ⟨[], []⟩).1 =
      some .ioError ∧
    raised (parseRequest (sampleEnv Breaking) {} (twoFileReq.breaking .ioError) ⟨[], []⟩).1 = some .ioError := by
  refine ⟨?_, ?_⟩ <;> decide +kernel

end Verif
