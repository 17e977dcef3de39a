import Verif.Proofs.Builtin
import Verif.Props.Header
/-!
# C20–C22, C67: limits, termination and exceptions of multipart parsing

`SOK L input` says that the request stream `input` is in good order: it has no fixed length and
few enough push-backs behind it (a fresh stream has none); `L.sc input` are the bytes still to
come from it.
-/

namespace Verif
open Spec

section
variable {ρ σ F : Type} [Producer ρ] {L : Lawful ρ}

/-- **C20.**  If multipart parsing returns a POST dictionary, it has at most
`DATA_UPLOAD_MAX_NUMBER_FIELDS` entries. -/
theorem C20_field_limit (C : Codecs) (S : Settings) (H : HandlerOps ρ σ F) (fuel64 : Nat)
    (m : MultiPart) (hc : 1 ≤ m.chunkSize) (hl : LeavesParsing L H)
    (input : LazyStream ρ) (w : σ) (hi : SOK L input) {post files s' w'}
    (hmem : ∀ k, S.dataMaxMemory = some k → 0 ≤ k)
    (h : m.parse C S H fuel64 input w = (.ok (post, files), s', w'))
    (n : Int) (hn : S.maxFields = some n) : (items post).length ≤ n := by
  have hq0 : emptyQueryDict C S = .ok () → S.maxFields.any (· < 0) = false := by
    intro hq
    unfold emptyQueryDict at hq
    by_contra hx
    rw [Bool.not_eq_false] at hx
    rw [hx] at hq
    simp only [if_true] at hq
    split at hq
    · split at hq <;> simp at hq
    · simp at hq
  rcases parse_elim C S H fuel64 m hc hl input w hi with
    ⟨e, _, _, h1, _⟩ | ⟨h0, hq, h1⟩ | ⟨h0, hq, input1, w1, r, D', st', s2, R, w2, _, h2, _, h3, h4, h5, _⟩
  · rw [h] at h1; simp at h1
  · rw [h] at h1
    simp only [Prod.mk.injEq, Except.ok.injEq] at h1
    have := hq0 hq
    simp [hn] at this
    simp [h1.1.1, items]; omega
  · rw [h] at h3
    simp only [Prod.mk.injEq] at h3
    obtain ⟨st1, a1, a2⟩ := h4.counted (Counted.start (C := C) H w1
      (by cases hd : S.dataMaxMemory with
        | none => rfl
        | some k => have := hmem k hd; simp; omega) (hq0 hq))
    have hp : post = st'.post := by
      rw [← h3.1] at h5
      unfold endParse at h5
      split at h5
      · split at h5
        · simp at h5
        · simp only [Prod.mk.injEq, Except.ok.injEq] at h5; exact h5.1.1.symm
      · split at h5
        · simp at h5
        · split at h5
          · simp at h5
          · simp only [Prod.mk.injEq, Except.ok.injEq] at h5; exact h5.1.1.symm
      · simp at h5
    rw [hp, a2]
    have h1 := a1.keys
    have := a1.within.keys
    simp [hn] at this
    omega

/-- **C20**, the converse: the limit changes nothing for bodies that respect it and makes the
parser raise `TooManyFieldsSent` for all others.  `n` is any limit; the reference is the result
without a limit.  `hset`: the charset is one in which an encoded name stays as it is when it is encoded again; in others
fields can get lost (`C132_lost_refuted`). -/
theorem C20_limit_exact (C : Codecs) (S : Settings) (H : HandlerOps ρ σ F) (fuel64 : Nat)
    (m : MultiPart) (hc : 1 ≤ m.chunkSize) (hl : LeavesParsing L H)
    (hC : ∀ b, C.Avoids (.stopUpload b)) (hset : C.Settles S)
    (hign : ∀ i n1 n2 (S' : Settings) s w,
      H.rawInput i ⟨m.contentLength, m.boundary, { S' with maxFields := n1 }⟩ s w =
      H.rawInput i ⟨m.contentLength, m.boundary, { S' with maxFields := n2 }⟩ s w)
    (hmem : ∀ k, S.dataMaxMemory = some k → 0 ≤ k)
    (input : LazyStream ρ) (w : σ) (hi : SOK L input) (n : Int) {post files s' w'}
    (h : m.parse C { S with maxFields := none } H fuel64 input w = (.ok (post, files), s', w')) :
    ((items post).length ≤ n →
      m.parse C { S with maxFields := some n } H fuel64 input w = (.ok (post, files), s', w')) ∧
    (n < (items post).length →
      (m.parse C { S with maxFields := some n } H fuel64 input w).1 = .error .tooManyFieldsSent) :=
  parse_limit C S H fuel64 m hc hl hC hset hign (by
    cases hd : S.dataMaxMemory with
    | none => rfl
    | some k => have := hmem k hd; simp; omega) input w hi n h

/-- **C21.**  If multipart parsing returns a POST dictionary, the total size of its fields
(value, name and 2 bytes each) is at most `DATA_UPLOAD_MAX_MEMORY_SIZE`.  The charset is one in
which an encoded ASCII name has the same bytes. -/
theorem C21_memory_limit (C : Codecs) (S : Settings) (H : HandlerOps ρ σ F) (fuel64 : Nat)
    (m : MultiPart) (hc : 1 ≤ m.chunkSize) (hl : LeavesParsing L H)
    (hcs : ∀ b k, C.strEncode S.defaultCharset b = .ok k → k = b)
    (input : LazyStream ρ) (w : σ) (hi : SOK L input) {post files s' w'}
    (h : m.parse C S H fuel64 input w = (.ok (post, files), s', w'))
    (n : Int) (hn : S.dataMaxMemory = some n) (hn0 : 0 ≤ n) :
    ((items post).map fieldSize).sum ≤ n := by
  have hq0 : emptyQueryDict C S = .ok () → S.maxFields.any (· < 0) = false := by
    intro hq
    unfold emptyQueryDict at hq
    by_contra hx
    rw [Bool.not_eq_false] at hx
    rw [hx] at hq
    simp only [if_true] at hq
    split at hq
    · split at hq <;> simp at hq
    · simp at hq
  rcases parse_elim C S H fuel64 m hc hl input w hi with
    ⟨e, _, _, h1, _⟩ | ⟨h0, hq, h1⟩ | ⟨h0, hq, input1, w1, r, D', st', s2, R, w2, _, h2, _, h3, h4, h5, _⟩
  · rw [h] at h1; simp at h1
  · rw [h] at h1
    simp only [Prod.mk.injEq, Except.ok.injEq] at h1
    simp [h1.1.1, items]; omega
  · rw [h] at h3
    simp only [Prod.mk.injEq] at h3
    obtain ⟨st1, a1, a2⟩ := h4.counted (Counted.start (C := C) H w1 (by simp [hn]; omega) (hq0 hq))
    have hp : post = st'.post := by
      rw [← h3.1] at h5
      unfold endParse at h5
      split at h5
      · split at h5
        · simp at h5
        · simp only [Prod.mk.injEq, Except.ok.injEq] at h5; exact h5.1.1.symm
      · split at h5
        · simp at h5
        · split at h5
          · simp at h5
          · simp only [Prod.mk.injEq, Except.ok.injEq] at h5; exact h5.1.1.symm
      · simp at h5
    rw [hp, a2]
    have h1 := a1.within.bytes
    have h2 := a1.bytes hcs
    simp [hn] at h1
    omega

/-- **C67.**  Apart from what the handlers and the codecs raise themselves, multipart parsing
raises only `TooManyFieldsSent`, `RequestDataTooBig`, `TypeError` (bad base64),
`UnicodeEncodeError` and `OverflowError` (file names and field names), or it does not terminate,
and then some part of the body is a base64-encoded file whose length is wrong. -/
theorem C67_exceptions (C : Codecs) (S : Settings) (H : HandlerOps ρ σ F) (fuel64 : Nat)
    (m : MultiPart) (hc : 1 ≤ m.chunkSize) (hl : LeavesParsing L H) (e : Exc)
    (hH : H.Avoids e) (hC : C.Avoids e) (hmem : ∀ k, S.dataMaxMemory = some k → 0 ≤ k)
    (input : LazyStream ρ) (w : σ) (hi : SOK L input) {s' w'}
    (h : m.parse C S H fuel64 input w = (.error e, s', w')) :
    ParserExc e ∨ (e = .diverge ∧ ∃ D, D <:+ L.sc input ∧ SpinPart C fuel64 (cut (b!"--" ++ m.boundary) D)) := by
  have hqe : emptyQueryDict C S = .error e → ParserExc e := by
    intro hq
    unfold emptyQueryDict at hq
    split at hq
    · rename_i e' he
      split at hq
      · split at hq
        · simp at hq; exact .inl hq.symm
        · simp at hq
      · simp at hq; subst hq; exact absurd he (hC.decode _ _)
    · split at hq
      · simp at hq; exact .inl hq.symm
      · simp at hq
  rcases parse_elim C S H fuel64 m hc hl input w hi with
    ⟨e', _, _, h1, h2⟩ | ⟨h0, hq, h1⟩ | ⟨h0, hq, input1, w1, r, D', st', s2, R, w2, _, h2, hsuf, h3, h4, h5, _⟩
  · rw [h] at h1
    simp only [Prod.mk.injEq, Except.error.injEq] at h1
    rw [← h1.1] at h2
    rcases h2 with h2 | ⟨i, a, s, w, h2⟩
    · exact .inl (hqe h2)
    · exact absurd h2 (hH.rawInput i a s w)
  · rw [h] at h1; simp at h1
  · rw [h] at h3
    simp only [Prod.mk.injEq] at h3
    rw [← h3.1] at h5
    have hr : r = .error e := by
      unfold endParse at h5
      split at h5
      · split at h5
        · rename_i hu
          simp only [Prod.mk.injEq, Except.error.injEq] at h5
          rw [h5.1] at hu
          exact absurd (by rw [hu]) (uploadCompleteLoop_no_err hH (List.range H.count) st'.world)
        · simp at h5
      · split at h5
        · rename_i hu
          simp only [Prod.mk.injEq, Except.error.injEq] at h5
          rw [h5.1] at hu
          exact absurd (by rw [hu]) (closeFiles_no_err hH (List.range H.count) st'.world)
        · split at h5
          · rename_i hu
            simp only [Prod.mk.injEq, Except.error.injEq] at h5
            rw [h5.1] at hu
            exact absurd (by rw [hu]) (uploadCompleteLoop_no_err hH (List.range H.count) _)
          · simp at h5
      · simp only [Prod.mk.injEq, Except.error.injEq] at h5; rw [h5.1]
    have hw : Within S (PState.start H w1) := by
      refine ⟨?_, ?_⟩
      · cases hd : S.dataMaxMemory with
        | none => rfl
        | some k => have := hmem k hd; simp [PState.start]; omega
      · unfold emptyQueryDict at hq
        by_contra hx
        rw [Bool.not_eq_false] at hx
        have hx' : S.maxFields.any (· < 0) = true := hx
        rw [hx'] at hq
        simp only [if_true] at hq
        split at hq
        · split at hq <;> simp at hq
        · simp at hq
    rcases h4.err hH hC hr hw with h | ⟨h, D, h1, h2⟩
    · exact .inl h
    · exact .inr ⟨h, D, h1.trans hsuf, h2⟩

/-- **C21**, second half: with a non-negative limit the assertion `remaining bytes to read
should never go negative` (`utils/datastructures.py`, `read`) is never violated. -/
theorem C21_no_assertion (C : Codecs) (S : Settings) (H : HandlerOps ρ σ F) (fuel64 : Nat)
    (m : MultiPart) (hc : 1 ≤ m.chunkSize) (hl : LeavesParsing L H)
    (hH : H.Avoids .assertionError) (hC : C.Avoids .assertionError)
    (hmem : ∀ k, S.dataMaxMemory = some k → 0 ≤ k)
    (input : LazyStream ρ) (w : σ) (hi : SOK L input) :
    (m.parse C S H fuel64 input w).1 ≠ .error .assertionError := by
  intro h
  rcases C67_exceptions C S H fuel64 m hc hl .assertionError hH hC hmem input w hi
    (s' := (m.parse C S H fuel64 input w).2.1) (w' := (m.parse C S H fuel64 input w).2.2)
    (by rw [← h]) with h | ⟨h, _⟩
  · simp [ParserExc] at h
  · simp at h

/-- The guard of the streams against endless push-backs never stops a parse. -/
theorem C67_no_guard (C : Codecs) (S : Settings) (H : HandlerOps ρ σ F) (fuel64 : Nat)
    (m : MultiPart) (hc : 1 ≤ m.chunkSize) (hl : LeavesParsing L H)
    (hH : H.Avoids .suspiciousMultipartForm) (hC : C.Avoids .suspiciousMultipartForm)
    (hmem : ∀ k, S.dataMaxMemory = some k → 0 ≤ k)
    (input : LazyStream ρ) (w : σ) (hi : SOK L input) :
    (m.parse C S H fuel64 input w).1 ≠ .error .suspiciousMultipartForm := by
  intro h
  rcases C67_exceptions C S H fuel64 m hc hl .suspiciousMultipartForm hH hC hmem input w hi
    (s' := (m.parse C S H fuel64 input w).2.1) (w' := (m.parse C S H fuel64 input w).2.2)
    (by rw [← h]) with h | ⟨h, _⟩
  · simp [ParserExc] at h
  · simp at h

/-- **C22** (partial: the full statement is that `parse` terminates on every body, which is false,
see `C22_refuted`).  A body in which the text `base64` (in any case) does not occur is always
parsed in finite time. -/
theorem C22_terminates_partial (C : Codecs) (S : Settings) (H : HandlerOps ρ σ F) (fuel64 : Nat)
    (m : MultiPart) (hc : 1 ≤ m.chunkSize) (hl : LeavesParsing L H)
    (hH : H.Avoids .diverge) (hC : C.Avoids .diverge)
    (hmem : ∀ k, S.dataMaxMemory = some k → 0 ≤ k)
    (input : LazyStream ρ) (w : σ) (hi : SOK L input)
    (hb : ¬ b!"base64" <:+: Py.lower (L.sc input)) :
    (m.parse C S H fuel64 input w).1 ≠ .error .diverge := by
  intro h
  rcases C67_exceptions C S H fuel64 m hc hl .diverge hH hC hmem input w hi
    (s' := (m.parse C S H fuel64 input w).2.1) (w' := (m.parse C S H fuel64 input w).2.2)
    (by rw [← h]) with h | ⟨_, D, h1, h2⟩
  · simp [ParserExc] at h
  · exact hb (h2.base64 h1)

/-- **C22** (partial): with as many rounds as the body has bytes, the base64 loop has either
finished or never will: the parser loops for ever only when the content of a base64 file part
has, without white space, a length that is not a multiple of 4.  (The converse is `C145_refuted`.) -/
theorem C22_spin_partial (C : Codecs) (S : Settings) (H : HandlerOps ρ σ F) (fuel64 : Nat)
    (m : MultiPart) (hc : 1 ≤ m.chunkSize) (hl : LeavesParsing L H)
    (hH : H.Avoids .diverge) (hC : C.Avoids .diverge)
    (hmem : ∀ k, S.dataMaxMemory = some k → 0 ≤ k)
    (input : LazyStream ρ) (w : σ) (hi : SOK L input) (hf : (L.sc input).length ≤ fuel64)
    (h : (m.parse C S H fuel64 input w).1 = .error .diverge) :
    ∃ D md content, D <:+ L.sc input ∧
      PartHead C (cut (b!"--" ++ m.boundary) D) .file md content ∧
      transferEnc md = some b!"base64" ∧ (Py.removeSpaces content).length % 4 ≠ 0 := by
  rcases C67_exceptions C S H fuel64 m hc hl .diverge hH hC hmem input w hi
    (s' := (m.parse C S H fuel64 input w).2.1) (w' := (m.parse C S H fuel64 input w).2.2)
    (by rw [← h]) with h | ⟨_, D, h1, md, content, h2, h3, h5⟩
  · simp [ParserExc] at h
  · refine ⟨D, md, content, h1, h2, h3, h5 ?_⟩
    have l2 := h1.length_le
    have l3 := (cut_prefix (b!"--" ++ m.boundary) D).length_le
    cases h2 with
    | header _ _ _ => rw [List.length_drop]; omega

end

/-! ### The hypotheses are met by ordinary requests -/

/-- An operating system on which temporary files can be created. -/
def goodOs : Os := ⟨fun _ => .ok ()⟩

/-- A body with two fields. -/
def twoFields : Bytes :=
  b!"--B\r\nContent-Disposition: form-data; name=\"a\"\r\n\r\nx\r\n--B\r\nContent-Disposition: form-data; name=\"b\"\r\n\r\nyz\r\n--B--\r\n"

/-- Parse `twoFields` with chunk size 7. -/
def runTwo (S : Settings) :=
  (⟨b!"B", 7, 100⟩ : MultiPart).parse latinCodecs S (builtinOps Source goodOs 1) 100
    (LazyStream.mk' ⟨[twoFields.take 30, twoFields.drop 30]⟩) { hs := [.memory {}] }

/-- Names and values in a result. -/
def namesAndValues {F σ τ : Type} (r : Except Exc (MVD PostItem × MVD F) × σ × τ) :
    Except Exc (List (Bytes × Bytes)) :=
  match r.1 with
  | .ok p => .ok ((items p.1).map (fun p => (p.1, p.2.data)))
  | .error e => .error e

example : LeavesParsing Source.lawful (builtinOps Source goodOs 1) := builtin_leaves _ _ _
example : namesAndValues (runTwo {}) = .ok [(b!"a", b!"x"), (b!"b", b!"yz")] := by rfl
example : namesAndValues (runTwo { maxFields := some 2 }) =
    .ok [(b!"a", b!"x"), (b!"b", b!"yz")] := by rfl
example : namesAndValues (runTwo { maxFields := some 1 }) = .error .tooManyFieldsSent := by rfl
example : namesAndValues (runTwo { maxFields := none, dataMaxMemory := some 9 }) =
    .ok [(b!"a", b!"x"), (b!"b", b!"yz")] := by rfl
example : namesAndValues (runTwo { dataMaxMemory := some 8 }) = .error .requestDataTooBig := by rfl
/-- With a negative limit the assertion does fire (C21 needs its hypothesis). -/
example : namesAndValues (runTwo { dataMaxMemory := some (-1) }) = .error .assertionError := by rfl
example : ¬ b!"base64" <:+: Py.lower twoFields := by decide +kernel

theorem latin_avoids {e : Exc} (h1 : e ≠ .unicodeDecodeError) (h2 : e ≠ .unicodeEncodeError) :
    latinCodecs.Avoids e := by
  refine ⟨?_, ?_, ?_, ?_⟩ <;> intro enc b <;> simp only [latinCodecs] <;> try split
  all_goals simp
  · exact h1.symm
  · exact h2.symm

theorem builtin_avoids {ρ : Type} {os : Os} {n : Nat} {e : Exc} (hos : ∀ x, os.tempFile x ≠ .error e)
    (h1 : e ≠ .attributeError) (h2 : e ≠ .valueError) (h3 : e ≠ .indexError) :
    (builtinOps ρ os n).Avoids e := by
  have on : ∀ {α : Type} (w : BWorld) (i : Nat) (f : Builtin → Heap → Res (Builtin × Heap) α),
      (∀ b h, (f b h).1 ≠ .error e) → (w.on i f).1 ≠ .error e := by
    intro α w i f hf
    unfold BWorld.on
    cases w.hs[i]? with
    | none => simpa using h3.symm
    | some b => exact hf b w.heap
  have md : ∀ (h : Heap) r f, (∀ o, f o ≠ .error e) → (h.modify r f).1 ≠ .error e := by
    intro h r f hf
    unfold Heap.modify
    split
    · simpa using h1.symm
    · rename_i o _
      have := hf o
      split
      · rename_i e' he; rw [he] at this; simpa using this
      · simp
  have wr : ∀ d (o : FileObj), o.write d ≠ .error e := by
    intro d o; unfold FileObj.write; split
    · simpa using h2.symm
    · simp
  have rw' : ∀ (o : FileObj), o.rewind ≠ .error e := by
    intro o; unfold FileObj.rewind; split
    · simpa using h2.symm
    · simp
  have mr : ∀ (m : MemoryH) d h, (m.receive d h).1 ≠ .error e := by
    intro m d h
    unfold MemoryH.receive
    split
    · simpa using h1.symm
    · simp
    · split
      · simpa using h1.symm
      · rename_i r _
        have := md h r (·.write d) (wr d)
        split
        · rename_i e' _ he; rw [he] at this; simpa using this
        · simp
  have mc : ∀ (m : MemoryH) s h, (m.fileComplete s h).1 ≠ .error e := by
    intro m s h
    unfold MemoryH.fileComplete
    split
    · simpa using h1.symm
    · simp
    · split
      · rename_i r _ _ _
        have := md h r (·.rewind) rw'
        split
        · rename_i e' _ he; rw [he] at this; simpa using this
        · simp
      · simpa using h1.symm
  have mn : e ≠ .stopFutureHandlers → ∀ (m : MemoryH) a h, (m.newFile a h).1 ≠ .error e := by
    intro h4 m a h
    unfold MemoryH.newFile
    simp only
    split
    · simpa using h1.symm
    · simp
    · simpa using h4.symm
  have tn : ∀ (t : TempH) a h, (t.newFile os a h).1 ≠ .error e := by
    intro t a h
    unfold TempH.newFile
    simp only
    split
    · simpa using h1.symm
    · have := hos (Py.splitext a.fileName).2
      split
      · rename_i e' he; rw [he] at this; simpa using this
      · simp
  have tr : ∀ (t : TempH) d h, (t.receive d h).1 ≠ .error e := by
    intro t d h
    unfold TempH.receive
    split
    · simpa using h1.symm
    · rename_i f _
      have := md h f.ref (·.write d) (wr d)
      split
      · rename_i e' _ he; rw [he] at this; simpa using this
      · simp
  have tc : ∀ (t : TempH) s h, (t.fileComplete s h).1 ≠ .error e := by
    intro t s h
    unfold TempH.fileComplete
    split
    · simpa using h1.symm
    · rename_i f _
      have := md h f.ref (·.rewind) rw'
      split
      · rename_i e' _ he; rw [he] at this; simpa using this
      · simp
  have sw : ∀ (c : ConvH) h, (c.switch os h).1 ≠ .error e := by
    intro c h
    unfold ConvH.switch
    have := mc c.memory c.received h
    split
    · rename_i e' _ he; rw [he] at this; simpa using this
    · simpa using h1.symm
    · split
      · simpa using h1.symm
      · split
        · rename_i e' he
          unfold FileObj.readAll at he
          split at he
          · simp at he; subst he; simpa using h2.symm
          · simp at he
        · simp only
          rename_i f heap _ _ o _ _ content o' _
          have := tn { hasSettings := true } { f.args with contentLength := some 0 } (heap.set f.ref o')
          split
          · rename_i e' _ _ he; rw [he] at this; simpa using this
          · rename_i t h2 _
            have := tr t content h2
            split
            · rename_i e' _ he; rw [he] at this; simpa using this
            · simp
  have cr : ∀ (c : ConvH) d h, (c.receive os d h).1 ≠ .error e := by
    intro c d h
    unfold ConvH.receive
    split
    · simpa using h1.symm
    · rename_i S _
      have hsw : (if c.switched = false ∧ (c.received : Int) + d.length > S
        then c.switch os h else (.ok (), c, h) : Res (ConvH × Heap) Unit).1 ≠ .error e := by
        split
        · exact sw c h
        · simp
      split
      · rename_i e' _ _ he; rw [he] at hsw; simpa using hsw
      · rename_i c2 h2 _
        have : (if c2.switched then c2.temp.receive d h2 else c2.memory.receive d h2).1 ≠ .error e := by
          split
          · exact tr _ _ _
          · exact mr _ _ _
        split
        · rename_i e' _ he; rw [he] at this; simpa using this
        · simp
  refine ⟨?_, ?_, ?_, ?_, ?_, ?_⟩
  · intro i a s w
    simp only [builtinOps]
    have := on w i (fun b h => (.ok (), b.rawInput a, h)) (by simp)
    split
    · rename_i e' _ he; rw [he] at this; simpa using this
    · simp
  · intro i a w hx
    by_contra h4
    refine on w i _ ?_ hx
    intro b h
    cases b with
    | memory m => exact mn h4 m a h
    | temp t => exact tn t a h
    | conv c =>
      simp only [Builtin.newFile, ConvH.newFile]
      split
      · exact tn _ _ _
      · exact mn h4 _ _ _
  · intro i d n w
    refine on w i _ ?_
    intro b h
    cases b with
    | memory m => exact mr m d h
    | temp t => exact tr t d h
    | conv c => exact cr c d h
  · intro i n w
    refine on w i _ ?_
    intro b h
    cases b with
    | memory m => exact mc m n h
    | temp t => exact tc t n h
    | conv c =>
      simp only [Builtin.fileComplete, ConvH.fileComplete]
      split
      · exact tc _ _ _
      · exact mc _ _ _
  · intro i w; simp [builtinOps]
  · intro i w
    refine on w i _ ?_
    intro b h; simp

/-- The hypotheses of C67, C21 and C22 hold for every list of built-in handlers. -/
example (n : Nat) (S : Settings) (hS : ∀ k, S.dataMaxMemory = some k → 0 ≤ k) (cs : List Bytes) (w : BWorld)
    (h : ¬ b!"base64" <:+: Py.lower cs.flatten) :
    ((⟨b!"B", 7, 100⟩ : MultiPart).parse latinCodecs S (builtinOps Source goodOs n) 0
      (LazyStream.mk' ⟨cs⟩) w).1 ≠ .error .diverge :=
  C22_terminates_partial latinCodecs S _ 0 _ (by simp) (builtin_leaves Source.lawful _ _)
    (builtin_avoids (by simp [goodOs]) (by simp) (by simp) (by simp))
    (latin_avoids (by simp) (by simp)) hS _ w (SOK.fresh cs) (by rw [sc_fresh]; exact h)

/-- The built-in handlers do not look at the limit on the number of fields. -/
theorem builtin_maxFields {ρ : Type} {os : Os} {k : Nat} {cl : Nat} {bd : Bytes} :
    ∀ i n1 n2 (S' : Settings) s w,
      (builtinOps ρ os k).rawInput i ⟨cl, bd, { S' with maxFields := n1 }⟩ s w =
      (builtinOps ρ os k).rawInput i ⟨cl, bd, { S' with maxFields := n2 }⟩ s w := by
  intro i n1 n2 S' s w
  have : ∀ b : Builtin, b.rawInput ⟨cl, bd, { S' with maxFields := n1 }⟩ =
      b.rawInput ⟨cl, bd, { S' with maxFields := n2 }⟩ := by
    intro b; cases b <;> rfl
  simp only [builtinOps, this]

theorem latin_settles (S : Settings) : latinCodecs.Settles S := .ofId fun b k h => by
  simp only [latinCodecs] at h
  split at h <;> cases h
  rfl

/-- So do those of the second part of C20. -/
example (k : Nat) (n : Int) (cs : List Bytes) (w : BWorld) {post files s' w'}
    (h : (⟨b!"B", 7, 100⟩ : MultiPart).parse latinCodecs { maxFields := none } (builtinOps Source goodOs k) 0
      (LazyStream.mk' ⟨cs⟩) w = (.ok (post, files), s', w')) (hlt : n < (items post).length) :
    ((⟨b!"B", 7, 100⟩ : MultiPart).parse latinCodecs { maxFields := some n } (builtinOps Source goodOs k) 0
      (LazyStream.mk' ⟨cs⟩) w).1 = .error .tooManyFieldsSent :=
  (C20_limit_exact latinCodecs {} _ 0 _ (by simp) (builtin_leaves Source.lawful _ _)
    (fun b => latin_avoids (by simp) (by simp)) (latin_settles _) builtin_maxFields (by simp) _ w (SOK.fresh cs) n h).2 hlt

/-- Content of the spinning body: a base64 file with three characters. -/
def spinBody : Bytes :=
  b!"--B\r\nContent-Disposition: form-data; name=\"f\"; filename=\"a\"\r\nContent-Transfer-Encoding: base64\r\n\r\nabc\r\n--B--"

/-- Worlds of one active in-memory handler with an empty file. -/
def spinWorld (a : NewFileArgs) : BWorld :=
  { hs := [.memory { args := some a, activated := some true, file := some 0 }], heap := [({} : FileObj)] }

theorem spin_fileRun (os : Os) (fuel64 : Nat) (a : NewFileArgs) {r cs' w'}
    (h : FileRun (builtinOps Source os 1) fuel64 true b!"abc" [0] (spinWorld a) r cs' w') :
    r = .error .diverge := by
  generalize hc : b!"abc" = content at h
  generalize hb : true = b64 at h
  generalize hcs : [0] = cs at h
  generalize hw : spinWorld a = w at h
  have raw0 : ∀ raw rest : Bytes, b!"abc" = raw ++ rest → (Py.removeSpaces raw).length % 4 = 0 →
      raw = [] := by
    intro raw rest h1 h2
    match raw with
    | [] => rfl
    | [x] => simp at h1; obtain ⟨rfl, _⟩ := h1; exact absurd h2 (by decide)
    | [x, y] => simp at h1; obtain ⟨rfl, rfl, _⟩ := h1; exact absurd h2 (by decide)
    | [x, y, z] => simp at h1; obtain ⟨rfl, rfl, rfl, _⟩ := h1; exact absurd h2 (by decide)
    | x :: y :: z :: u :: v => simp at h1
  induction h with
  | stop => simp at hc
  | step h1 h2 h3 h4 ih =>
    obtain ⟨a1, a2⟩ := h2 hb.symm
    have := raw0 _ _ hc a1
    subst this
    simp [Py.removeSpaces, Py.b64decode, Py.a2bLoop] at a2
    subst a2
    subst hcs hw
    have e : feedChunk (builtinOps Source os 1) (List.range 1) [] [0] (spinWorld a) =
      (.ok (), [0], spinWorld a) := rfl
    have h3' := h3
    change feedChunk (builtinOps Source os 1) (List.range 1) [] [0] (spinWorld a) = _ at h3'
    rw [e] at h3'
    simp only [Prod.mk.injEq] at h3'
    exact ih hc h3'.2.1 h3'.2.2
  | fail h1 h2 h3 =>
    obtain ⟨a1, a2⟩ := h2 hb.symm
    have := raw0 _ _ hc a1
    subst this
    simp [Py.removeSpaces, Py.b64decode, Py.a2bLoop] at a2
    subst a2
    subst hcs hw
    have e : feedChunk (builtinOps Source os 1) (List.range 1) [] [0] (spinWorld a) =
      (.ok (), [0], spinWorld a) := rfl
    change feedChunk (builtinOps Source os 1) (List.range 1) [] [0] (spinWorld a) = _ at h3
    rw [e] at h3
    simp at h3
  | badBase64 _ h1 h2 =>
    have := raw0 _ _ hc h1
    subst this
    simp [Py.removeSpaces, Py.b64decode, Py.a2bLoop] at h2
  | spin => rfl

/-- **C22 is false**: on this body `parse` runs for ever (out of any fuel), however it arrives
and whatever the chunk size. -/
theorem C22_refuted (os : Os) (fuel64 chunkSize : Nat) (hc : 1 ≤ chunkSize) (chunks : List Bytes)
    (hb : chunks.flatten = spinBody) :
    ((⟨b!"B", chunkSize, 100⟩ : MultiPart).parse latinCodecs {} (builtinOps Source os 1) fuel64
      (LazyStream.mk' ⟨chunks⟩) { hs := [.memory {}] }).1 = .error .diverge := by
  have hraw : rawInputLoop (builtinOps Source os 1) ⟨100, b!"B", {}⟩ (List.range 1)
      (LazyStream.mk' ⟨chunks⟩) { hs := [.memory {}] } =
      (.ok none, LazyStream.mk' ⟨chunks⟩, { hs := [.memory { activated := some true }] }) := rfl
  rcases parse_spec latinCodecs {} (builtinOps Source os 1) fuel64 ⟨b!"B", chunkSize, 100⟩ hc (by simp)
    _ _ _ _ hraw (SOK.fresh chunks) with ⟨e, h, _⟩ | ⟨_, r, D', st', s', R, w', h1, h2, h3, _⟩
  · simp [emptyQueryDict, latinCodecs] at h
  rw [h1]
  rw [sc_fresh, hb] at h2
  have hr : r = .error .diverge := by
    have c1 : cut b!"--B" spinBody = [] := by decide +kernel
    obtain ⟨t, md, content, b, r1, D1, st1, p1, p2, _, p3⟩ := h2.step_inv (by decide) (by
      rintro e ⟨i, hi, _⟩
      change Py.find _ ((cut b!"--B" spinBody).take 1024) = _ at hi
      rw [c1] at hi; simp [Py.find] at hi)
    change PartHead _ (cut b!"--B" spinBody) _ _ _ at p1
    rw [c1] at p1
    obtain ⟨rfl, rfl, rfl⟩ := p1.inv_none (by decide)
    obtain ⟨rfl, rfl, rfl⟩ := p2.skip_inv (st1 := PState.start (builtinOps Source os 1) _) rfl rfl
    rcases p3 with ⟨e, h, _⟩ | ⟨_, _, hD, p4⟩
    · simp at h
    have c2 := hD (.inr (by
      change (cut b!"--B" spinBody).length < 1024
      rw [c1]; decide))
    change D1 = after b!"--B" spinBody at c2
    have c3 : after b!"--B" spinBody = b!"\r\nContent-Disposition: form-data; name=\"f\"; filename=\"a\"\r\nContent-Transfer-Encoding: base64\r\n\r\nabc\r\n--B--" := by
      decide +kernel
    rw [c3] at c2
    subst c2
    have c4 : cut b!"--B" b!"\r\nContent-Disposition: form-data; name=\"f\"; filename=\"a\"\r\nContent-Transfer-Encoding: base64\r\n\r\nabc\r\n--B--" =
      b!"\r\nContent-Disposition: form-data; name=\"f\"; filename=\"a\"\r\nContent-Transfer-Encoding: base64\r\n\r\nabc" := by decide +kernel
    have c5 : Py.find b!"\r\n\r\n" (b!"\r\nContent-Disposition: form-data; name=\"f\"; filename=\"a\"\r\nContent-Transfer-Encoding: base64\r\n\r\nabc".take 1024) = some 91 := by decide +kernel
    have c6 : partHeaders latinCodecs (Py.splitPair 13 10 (b!"\r\nContent-Disposition: form-data; name=\"f\"; filename=\"a\"\r\nContent-Transfer-Encoding: base64\r\n\r\nabc".take 91)) .raw [] =
      .ok (.file, [(b!"content-disposition", b!" form-data", [(b!"name", .b b!"f"), (b!"filename", .b b!"a")]),
        (b!"content-transfer-encoding", b!" base64", [])]) := by rfl
    obtain ⟨t, md, content, b, r1, D1, st1, p1, p2, _, p3⟩ := p4.step_inv (by decide) (by
      rintro e ⟨i, hi, hp⟩
      change Py.find _ ((cut b!"--B" _).take 1024) = _ at hi
      change partHeaders _ (Py.splitPair 13 10 ((cut b!"--B" _).take i)) _ _ = _ at hp
      rw [c4, c5] at hi
      simp only [Option.some.injEq] at hi
      subst hi
      rw [c4, c6] at hp
      simp at hp)
    change PartHead _ (cut b!"--B" _) _ _ _ at p1
    rw [c4] at p1
    obtain ⟨rfl, rfl, rfl⟩ := p1.inv c5 c6 (by decide)
    obtain ⟨r0, cs, w, q1, q2⟩ := p2.file_inv (name := b!"f") (fn := b!"a") (n := .b b!"f")
      (st1 := PState.start (builtinOps Source os 1) _) rfl rfl rfl rfl rfl (by decide)
    have hr0 : r0 = .error .diverge := by
      cases q1 with
      | refused h =>
        change newFiles (builtinOps Source os 1) _ (List.range 1) _ = _ at h
        simp [newFiles, builtinOps, BWorld.on, Builtin.newFile, MemoryH.newFile, PState.start,
          List.range, List.range.loop] at h
      | fed h1 h2 =>
        have e : newFiles (builtinOps Source os 1) (fileArgs b!"f" b!"a" (some b!"base64") [(b!"content-disposition", b!" form-data", [(b!"name", .b b!"f"), (b!"filename", .b b!"a")]),
          (b!"content-transfer-encoding", b!" base64", [])]) (List.range 1) { hs := [.memory { activated := some true }] }
            = (.ok (), spinWorld _) := rfl
        change newFiles (builtinOps Source os 1) (fileArgs b!"f" b!"a" (some b!"base64") [(b!"content-disposition", b!" form-data", [(b!"name", .b b!"f"), (b!"filename", .b b!"a")]),
          (b!"content-transfer-encoding", b!" base64", [])]) (List.range 1) { hs := [.memory { activated := some true }] } = _ at h1
        rw [e] at h1
        simp only [Prod.mk.injEq, true_and] at h1
        subst h1
        exact spin_fileRun os fuel64 _ h2
    rcases q2 with ⟨h, _⟩ | ⟨h, _⟩ | ⟨e, h, _, h', _⟩
    · rw [hr0] at h; simp at h
    · rw [hr0] at h; simp at h
    · rw [hr0] at h
      simp at h; subst h
      rcases p3 with ⟨e, h, h2, _⟩ | ⟨h, _⟩
      · rw [h'] at h; simp at h; subst h; exact h2
      · rw [h'] at h; simp at h
  subst hr
  simp only [endParse, Prod.mk.injEq] at h3
  exact h3.1.symm

end Verif
