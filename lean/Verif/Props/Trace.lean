import Verif.Proofs.Complete
import Verif.Props.Limits
/-!
# C23, C25, C30: what upload handlers see

`traced H` is `H` with a log of all calls; `parse_traced` says that logging changes nothing.
-/

namespace Verif
open Spec

section
variable {ρ σ F : Type} [Producer ρ] {L : Lawful ρ}

/-- **C23.**  For every list of handlers, however they behave, and every request stream (even a
broken one): each `receive_data_chunk` call is told the number of bytes this handler got before
for the same file, and each `file_complete` call their total. -/
theorem C23_contiguous (C : Codecs) (S : Settings) (H : HandlerOps ρ σ F) (fuel64 : Nat)
    (m : MultiPart) (input : LazyStream ρ) (w : σ) :
    Contiguous (m.parse C S (traced H) fuel64 input (w, [])).2.2.2 :=
  parse_contiguous C S fuel64 m input (w, []) ⟨fun _ => 0, rfl⟩

/-- Logging changes neither the result, nor the stream, nor the handlers. -/
theorem C23_log_faithful (C : Codecs) (S : Settings) (H : HandlerOps ρ σ F) (fuel64 : Nat)
    (m : MultiPart) (input : LazyStream ρ) (w : σ) :
    m.parse C S H fuel64 input w =
      ((m.parse C S (traced H) fuel64 input (w, [])).1, (m.parse C S (traced H) fuel64 input (w, [])).2.1,
       (m.parse C S (traced H) fuel64 input (w, [])).2.2.1) :=
  parse_traced H C S fuel64 m input (w, [])

/-- **C25.**  Every file in FILES belongs to a part of the body that is followed by a separator
(and at least one more byte): a truncated upload never appears.  Moreover handler 0 was given
exactly the bytes of that part (unless they are base64-encoded), and the file is what a handler
returned for it. -/
theorem C25_no_truncated_file (C : Codecs) (S : Settings) (H : HandlerOps ρ σ F) (fuel64 : Nat)
    (m : MultiPart) (hc : 1 ≤ m.chunkSize) (hl : LeavesParsing L H)
    (input : LazyStream ρ) (w : σ) (hi : SOK L input) {post files s' w' log}
    (h : m.parse C S (traced H) fuel64 input (w, []) = (.ok (post, files), s', w', log))
    (name : Bytes) (f : F) (hf : (name, f) ∈ items files) :
    ∃ args data content, args.fieldName = name ∧ Completed log args data f ∧
      Delimited (b!"--" ++ m.boundary) (L.sc input) content ∧
      (args.transferEncoding ≠ some b!"base64" → data = content) := by
  have hl' : LeavesParsing L (traced H) := ⟨fun i a s w r => hl.none i a s w.1 r,
    fun i a s w => hl.reads i a s w.1⟩
  rcases parse_elim C S (traced H) fuel64 m hc hl' input (w, []) hi with
    ⟨e, _, _, h1, _⟩ | ⟨h0, hq, h1⟩ | ⟨h0, hq, input1, w1, r, D', st', s2, R, w2, _, h2, hsuf, h3, h4, h5, _⟩
  · rw [h] at h1; simp at h1
  · rw [h] at h1
    simp only [Prod.mk.injEq, Except.ok.injEq] at h1
    rw [h1.1.2] at hf
    simp [items] at hf
  · rw [h] at h3
    simp only [Prod.mk.injEq] at h3
    have hk := h4.cinv hsuf ⟨by simp [PState.start, items], by simp [PState.start]⟩
    rw [← h3.1, ← h3.2.2] at h5
    have hp : files = st'.files ∧ st'.world.2 <+: log := by
      unfold endParse at h5
      have hcnt : (traced H).count = H.count := rfl
      rw [hcnt] at h5
      have g1 := closeFiles_keeps (traced_grows (H := H) st'.world.2) (List.range H.count) st'.world
        (List.prefix_refl _)
      split at h5
      · split at h5
        · simp at h5
        · rename_i _ w3 hu
          have g := uploadCompleteLoop_keeps (traced_grows (H := H) st'.world.2) (List.range H.count) st'.world
            (List.prefix_refl _)
          rw [hu] at g
          simp only [Prod.mk.injEq, Except.ok.injEq] at h5
          rw [h5.2] at g
          exact ⟨h5.1.2.symm, g⟩
      · split at h5
        · simp at h5
        · rename_i _ w3 hcl
          rw [hcl] at g1
          split at h5
          · simp at h5
          · rename_i _ w4 hu
            have g := uploadCompleteLoop_keeps (traced_grows (H := H) st'.world.2) (List.range H.count) w3 g1
            rw [hu] at g
            simp only [Prod.mk.injEq, Except.ok.injEq] at h5
            rw [h5.2] at g
            exact ⟨h5.1.2.symm, g⟩
      · simp at h5
    rw [hp.1] at hf
    exact (hk _ hf).mono hp.2

/-- **C30.**  If the handlers before number `k` return `None` from `handle_raw_input` and handler
`k` returns a pair, `parse` returns exactly this pair; nothing is read besides what these
handlers read, and no other call is made. -/
theorem C30_override (C : Codecs) (S : Settings) (H : HandlerOps ρ σ F) (fuel64 : Nat)
    (m : MultiPart) (hl : m.contentLength ≠ 0) (input : LazyStream ρ) (w : σ) (k : Nat) (hk : k < H.count)
    {s1 w1 s2 w2 pair}
    (h1 : Consult H ⟨m.contentLength, m.boundary, S⟩ (List.range k) input w s1 w1)
    (h2 : H.rawInput k ⟨m.contentLength, m.boundary, S⟩ s1 w1 = (.ok (some pair), s2, w2)) :
    m.parse C S (traced H) fuel64 input (w, []) =
      (.ok pair, s2, w2, (List.range (k + 1)).map .raw) := by
  have key : ∀ (is js : List Nat) s w s1 w1 (log : List (Ev F)),
      Consult H ⟨m.contentLength, m.boundary, S⟩ is s w s1 w1 →
      H.rawInput k ⟨m.contentLength, m.boundary, S⟩ s1 w1 = (.ok (some pair), s2, w2) →
      rawInputLoop (traced H) ⟨m.contentLength, m.boundary, S⟩ (is ++ k :: js) s (w, log) =
        (.ok (some pair), s2, w2, log ++ (is ++ [k]).map .raw) := by
    intro is js s w s1 w1 log h1 h2
    induction h1 generalizing log with
    | nil => simp [rawInputLoop, traced, h2]
    | @cons i _ _ _ _ _ _ _ h3 h4 ih =>
      have := ih (log ++ [Ev.raw i]) h2
      simp only [List.cons_append, rawInputLoop, traced, h3]
      refine this.trans ?_
      simp
  have hr : List.range H.count = List.range k ++ k :: (List.range (H.count - (k + 1))).map (· + (k + 1)) := by
    obtain ⟨j, hj⟩ : ∃ j, H.count = (k + 1) + j := ⟨H.count - (k + 1), by omega⟩
    rw [hj, List.range_add, List.range_succ]
    simp [Nat.add_comm]
  unfold MultiPart.parse
  rw [if_neg hl]
  have hcnt : (traced H).count = H.count := rfl
  rw [hcnt, hr, key _ _ _ _ _ _ _ h1 h2]
  simp [List.range_succ]

/-- **C30**, second half: if no handler returns a pair (or raises), each handler's
`handle_raw_input` was called exactly once, in order, during the whole parse. -/
theorem C30_each_once (C : Codecs) (S : Settings) (H : HandlerOps ρ σ F) (fuel64 : Nat)
    (m : MultiPart) (hl : m.contentLength ≠ 0) (input : LazyStream ρ) (w : σ)
    {s1 w1} (h1 : Consult H ⟨m.contentLength, m.boundary, S⟩ (List.range H.count) input w s1 w1) :
    ∃ rest, (m.parse C S (traced H) fuel64 input (w, [])).2.2.2 = (List.range H.count).map .raw ++ rest ∧
      ∀ i, Ev.raw i ∉ rest := by
  have key : ∀ (is : List Nat) s w s1 w1 (log : List (Ev F)),
      Consult H ⟨m.contentLength, m.boundary, S⟩ is s w s1 w1 →
      rawInputLoop (traced H) ⟨m.contentLength, m.boundary, S⟩ is s (w, log) =
        (.ok none, s1, w1, log ++ is.map .raw) := by
    intro is s w s1 w1 log h1
    induction h1 generalizing log with
    | nil => simp [rawInputLoop]
    | @cons i _ _ _ _ _ _ _ h3 h4 ih =>
      have := ih (log ++ [Ev.raw i])
      simp only [rawInputLoop, traced, h3]
      refine this.trans ?_
      simp
  have hk : (traced H).Keeps (fun w => ∃ rest, w.2 = (List.range H.count).map .raw ++ rest ∧
      ∀ i, Ev.raw i ∉ rest) (fun _ => True) (fun _ => True) := by
    have add : ∀ (log : List (Ev F)) e, (∃ rest, log = (List.range H.count).map .raw ++ rest ∧
        ∀ i, Ev.raw i ∉ rest) → (∀ i, e ≠ Ev.raw i) →
        ∃ rest, log ++ [e] = (List.range H.count).map .raw ++ rest ∧ ∀ i, Ev.raw i ∉ rest := by
      rintro log e ⟨rest, rfl, h⟩ he
      refine ⟨rest ++ [e], by simp, ?_⟩
      intro i hi
      rcases List.mem_append.1 hi with hi | hi
      · exact h i hi
      · simp at hi; exact he i hi.symm
    exact ⟨newFiles_of_newFile fun i a w h _ => add _ _ h (by simp), fun i d n w h => add _ _ h (by simp),
      fun i n w h => add _ _ h (by simp), fun _ _ _ _ _ _ => trivial, fun i w h => add _ _ h (by simp),
      fun i w h => add _ _ h (by simp)⟩
  have hr := key _ _ _ _ _ [] h1
  exact (parse_keeps hk (by simp) C S fuel64 m hl input _ (w, []) _ hr ⟨[], by simp, by simp⟩).1

end

/-! ### Examples -/

/-- A body with a file and a field, and then a truncated file. -/
def fileBody : Bytes :=
  b!"--B\r\nContent-Disposition: form-data; name=\"f\"; filename=\"a.txt\"\r\n\r\nhello\r\n--B\r\nContent-Disposition: form-data; name=\"b\"\r\n\r\nyz\r\n--B\r\nContent-Disposition: form-data; name=\"g\"; filename=\"b\"\r\n\r\ncut"

/-- Parse `fileBody` with a ConvenientFileUploadHandler that may keep 2 bytes, in pieces of 3. -/
def runFile := (⟨b!"B", 3, 100⟩ : MultiPart).parse latinCodecs { fileMaxMemory := 2 }
  (traced (builtinOps Source goodOs 1)) 100 (LazyStream.mk' ⟨[fileBody]⟩) ({ hs := [.conv {}] }, [])

/-- The complete file is in FILES, the truncated one is not. -/
example : (match runFile.1 with
    | .ok (_, files) => (items files).map (fun p => (p.1, p.2.name, p.2.size, p.2.inMemory))
    | .error _ => []) = [(b!"f", b!"a.txt", 5, false)] := by decide +kernel

/-- The log of `runFile`. -/
example : runFile.2.2.2.filterMap (fun e => match e with
    | .receive i d n => some (i, d, n)
    | .complete i n _ => some (i, [], n)
    | _ => none) =
    [(0, b!"hello", 0), (0, [], 5), (0, b!"cut", 0)] := by decide +kernel

/-- Three handlers; the second one overrides the parser. -/
def overriding : HandlerOps Source Unit Unit where
  count := 3
  chunkSize _ := none
  rawInput i _ s _ := (.ok (if i = 1 then some ([(b!"k", [])], []) else none), s, ())
  newFile _ _ _ := (.ok (), ())
  receive _ d _ _ := (.ok (some d), ())
  fileComplete _ _ _ := (.ok none, ())
  truthy _ _ := true
  uploadComplete _ _ := (.ok false, ())
  close _ _ := (.ok (), ())

example (s : LazyStream Source) : (⟨b!"B", 3, 100⟩ : MultiPart).parse latinCodecs {} (traced overriding) 0 s ((), []) =
    (.ok ([(b!"k", [])], []), s, (), [.raw 0, .raw 1]) :=
  C30_override latinCodecs {} overriding 0 _ (by decide) s () 1 (by decide) (.cons rfl .nil) rfl

example (s : LazyStream Source) : Consult (builtinOps Source goodOs 2) ⟨100, b!"B", {}⟩ (List.range 2) s
    { hs := [.memory {}, .temp {}] } s
    { hs := [.memory { activated := some true }, .temp { hasSettings := true }] } :=
  .cons rfl (.cons rfl .nil)

end Verif
