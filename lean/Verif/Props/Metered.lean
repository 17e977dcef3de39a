import Verif.Proofs.Meter
import Verif.Props.LeftBehind
/-!
# The bytes of a form, whatever the object does that they come from (C119, C128)
-/

namespace Verif
open Spec

/-- A lawful object gives its content. -/
def Lawful.meter {ρ : Type} [Producer ρ] (L : Lawful ρ) : Meter ρ where
  holds p n := L.Inv p ∧ (L.content p).length ≤ n
  mono h := fun ⟨a, b⟩ => ⟨a, by omega⟩
  next := by
    rintro p n ⟨h1, h2⟩
    rcases L.next_spec p h1 with ⟨p', e, a1, -, -, a2, -⟩ | ⟨c, p', e, a1, a2, -⟩
    · rw [e]
      exact ⟨0, by simp [gave], a1, by simp [a2]⟩
    · rw [e]
      refine ⟨(L.content p').length, ?_, a1, Nat.le_refl _⟩
      rw [a2] at h2
      simpa [gave] using h2

theorem SOK.has {ρ : Type} [Producer ρ] {L : Lawful ρ} {s : LazyStream ρ} (h : SOK L s) : L.meter.Has s (L.sc s).length :=
  ⟨_, ⟨h.inv, Nat.le_refl _⟩, by simp [Lawful.sc]⟩

/-- A file-like object that does, call after call, whatever is on the tape: give a chunk, end, or raise; it may go on
after it has ended or raised.  After the tape it has ended. -/
structure Tape where
  steps : List (Except Exc (Option Bytes))

instance : Producer Tape where
  next t := match t.steps with
    | [] => (.ok none, t)
    | x :: xs => (x, ⟨xs⟩)
  size t := (t.steps.map (fun x => gave x + 1)).sum

/-- The bytes on the tape. -/
def Tape.bytes (t : Tape) : Nat := (t.steps.map gave).sum

/-- A tape gives the bytes that are on it. -/
def Tape.meter : Meter Tape where
  holds t n := t.bytes ≤ n
  mono h h' := Nat.le_trans h' h
  next := by
    rintro ⟨_ | ⟨x, xs⟩⟩ n h
    · exact ⟨0, by simp [Producer.next, gave], by simp [Producer.next, Tape.bytes]⟩
    · refine ⟨(xs.map gave).sum, ?_, Nat.le_refl _⟩
      simpa [Tape.bytes, Producer.next] using h

section
variable {ρ : Type} [Producer ρ] {M : Meter ρ} {os : Os} {hs : List Builtin} {heap : Heap}

theorem builtin_raw (os : Os) (hs : List Builtin) (heap : Heap) (a : RawArgs) (input : LazyStream ρ) :
    rawInputLoop (builtinOps ρ os hs.length) a (List.range (builtinOps ρ os hs.length).count) input ⟨hs, heap⟩ =
      (.ok none, input, ⟨hs.map (Builtin.rawInput a), heap⟩) := by
  have hraw := rawInputLoop_builtin (ρ := ρ) os hs.length a input heap hs []
  simp only [List.length_nil, List.nil_append, ← List.range_eq_range'] at hraw
  exact hraw

theorem run_empty (C : Codecs) (S : Settings) {σ F : Type} (H : HandlerOps ρ σ F) (fuel64 : Nat) (text : Bool) (m : MultiPart)
    (hl : m.contentLength = 0) (input : LazyStream ρ) (w : σ) :
    (m.run C S H fuel64 text input w).2.2 = w ∧
    ∀ r, (m.run C S H fuel64 text input w).1 = .ok r → r = ([], []) := by
  unfold MultiPart.run
  cases text
  · rw [if_neg (by simp)]
    unfold MultiPart.parse
    rw [if_pos hl]
    cases emptyQueryDict C S
    · exact ⟨rfl, by simp⟩
    · exact ⟨rfl, fun r h => by cases h; rfl⟩
  · rw [if_pos rfl]
    unfold MultiPart.parseText
    rw [if_pos hl]
    cases emptyQueryDict C S
    · exact ⟨rfl, by simp⟩
    · exact ⟨rfl, fun r h => by cases h; rfl⟩

/-- **C128, the bytes.** Whatever is sent, also when `parse` raises, whatever kind the boundary is, and whatever the object
does that the body comes from: the files that there are afterwards, open or closed, in the result or not, have together
at most twice as many bytes more than before as the object gives. -/
theorem C128_bounded_partial (hos : ∀ x, os.tempFile x ≠ .error .stopFutureHandlers) (hn : ∀ b ∈ hs, NewHandler b)
    (C : Codecs) (S : Settings) (fuel64 : Nat) (text : Bool) (m : MultiPart) {input : LazyStream ρ} {n : Nat}
    (hi : M.Has input n) (heap : Heap) :
    (((m.run C S (builtinOps ρ os hs.length) fuel64 text input ⟨hs, heap⟩).2.2.heap).map (·.data.length)).sum ≤
      (heap.map (·.data.length)).sum + 2 * n := by
  by_cases hl : m.contentLength = 0
  · rw [(run_empty C S _ fuel64 text m hl input _).1]
    simp
  have n2 : ∀ a, ∀ b ∈ hs.map (Builtin.rawInput a), b.refs = [] := by
    intro a b hb
    obtain ⟨x, hx, rfl⟩ := List.mem_map.1 hb
    exact newHandler_refs (hn x hx) a
  obtain ⟨⟨fs, h⟩, -⟩ := run_metered (builtin_burden (ρ := ρ) (n := hs.length) hos heap.total) C S fuel64 text m hl
    (builtin_raw os hs heap _ input) hi ⟨owned_new heap (n2 _), by rw [load_new heap (n2 _)]; omega⟩
  have := h.2
  simp only [BWorld.load, Heap.total] at this
  omega

/-- **C119**, whatever the object does that the body comes from: if parsing succeeds nevertheless, the fields and the files
have together at most as many bytes as the object gives. -/
theorem C119_any_object (hos : ∀ x, os.tempFile x ≠ .error .stopFutureHandlers) (hn : ∀ b ∈ hs, NewHandler b)
    (C : Codecs) (S : Settings) (fuel64 : Nat) (text : Bool) (m : MultiPart) {input : LazyStream ρ} {n : Nat}
    (hi : M.Has input n) {post : MVD PostItem} {files : MVD Uploaded} {s' : LazyStream ρ} {w' : BWorld}
    (h : m.run C S (builtinOps ρ os hs.length) fuel64 text input ⟨hs, heap⟩ = (.ok (post, files), s', w')) :
    fieldBytes post + fileBytes w'.heap (filesOf files) ≤ n := by
  by_cases hl : m.contentLength = 0
  · have := (run_empty C S (builtinOps ρ os hs.length) fuel64 text m hl input ⟨hs, heap⟩).2 (post, files) (by rw [h])
    cases this
    simp [fieldBytes, fileBytes, filesOf, items]
  obtain ⟨-, h2⟩ := run_metered (builtin_weighs (ρ := ρ) (h0 := heap) (n := hs.length) hos) C S fuel64 text m hl
    (builtin_raw os hs heap _ input) hi ⟨map_apart _ fun b hb => newHandler_refs (hn b hb) _, by simp [Heap.weight]⟩
  rw [h] at h2
  obtain ⟨k, k1, k2⟩ := h2 post files rfl
  have k3 := k2.2
  simp only at k3
  rw [weight_fileBytes] at k3
  omega

theorem Meter.Has.header (z : Int) : ∀ (fuel : Nat) (acc : Bytes) (started : Bool) {s : LazyStream ρ} {n : Nat}, M.Has s n →
    ∃ k, M.Has (headerLoop z fuel acc started s).2.1 k ∧ k ≤ n ∧
      ∀ a b, (headerLoop z fuel acc started s).1 = .ok (a, b) → b.length + k ≤ acc.length + n := by
  intro fuel
  induction fuel with
  | zero => intro acc started s n h; exact ⟨n, h, Nat.le_refl _, by simp [headerLoop]⟩
  | succ fuel ih =>
    intro acc started s n h
    unfold headerLoop
    obtain ⟨k, h1, h2⟩ := h.read (some z)
    generalize s.read (some z) = y at *
    rcases y with ⟨e | c, s1⟩
    · exact ⟨k, h2, by omega, by simp⟩
    · simp only [gaveAll] at h1 h2
      simp only
      split
      · exact ⟨k, h2, by omega, by simp⟩
      · cases Py.find b!"\r\n\r\n" (acc ++ c) with
        | some i =>
          refine ⟨k, h2, by omega, ?_⟩
          intro a b hab
          simp only [Except.ok.injEq, Prod.mk.injEq] at hab
          rw [← hab.2]
          simp only [List.length_drop, List.length_append]
          omega
        | none =>
          obtain ⟨j, j1, j2, j3⟩ := ih (acc ++ c) true h2
          refine ⟨j, j1, by omega, ?_⟩
          intro a b hab
          have := j3 a b hab
          simp only [List.length_append] at this
          omega

theorem parseRequestHeader_metered {σ F : Type} (E : Env ρ σ F) (S : Settings) {r : Req ρ σ F} {n : Nat} (h : M.Has r.stream n) :
    M.Has (parseRequestHeader E S r).2.2.stream n := by
  unfold parseRequestHeader
  split
  · exact h
  · obtain ⟨k, h1, h2, h3⟩ := h.header S.maxHeaderSize (r.stream.size + 2) [] false
    generalize headerLoop S.maxHeaderSize (r.stream.size + 2) [] false r.stream = y at *
    rcases y with ⟨e | ⟨hd, rest⟩, s, st⟩
    · exact h1.le h2
    · simp only at h1 h3 ⊢
      have h4 := (h1.unget rest).le (m := n) (by have := h3 hd rest rfl; simpa using this)
      generalize s.unget rest = y at *
      rcases y with ⟨e | _, s2⟩
      · exact h4
      · simp only at h4 ⊢
        rw [(applyHeader_frame E hd S { r with stream := s2, headerParsed := true }).1.stream]
        exact h4

variable {C : Codecs} {up : List UStr} {mods : Modules (Except Exc Builtin)} {names : List Bytes} {fuel64 : Nat}

/-- **C128, the bytes, for a request.** However parsing ends, whatever has been done with the request before, and whatever
the object does that it is read from: the files have afterwards at most twice as many bytes more as the object gives. -/
theorem C128_request_partial (hos : ∀ x, os.tempFile x ≠ .error .stopFutureHandlers) (hm : MakesNew mods)
    (S : Settings) {r : Req ρ BWorld Uploaded} {n : Nat} (hr : M.Has r.stream n) (w : BWorld) :
    (((parseRequest (namedEnv ρ C up os mods names fuel64) S r w).2.2.2.heap).map (·.data.length)).sum ≤
      (w.heap.map (·.data.length)).sum + 2 * n := by
  unfold parseRequest
  have h1 := parseRequestHeader_metered (namedEnv ρ C up os mods names fuel64) S hr
  generalize parseRequestHeader (namedEnv ρ C up os mods names fuel64) S r = y at *
  rcases y with ⟨e | _, S1, r1⟩
  · exact Nat.le_add_right _ _
  simp only at h1 ⊢
  unfold parseRequestBody
  split
  · exact Nat.le_add_right _ _
  cases hl : loadHandlers mods names with
  | error e =>
    have e1 : (namedEnv ρ C up os mods names fuel64).load w = (.error e, w) := by simp only [namedEnv, hl]
    rw [e1]
    exact Nat.le_add_right _ _
  | ok hs =>
    have e1 : ∀ w, (namedEnv ρ C up os mods names fuel64).load w = (.ok (builtinOps ρ os hs.length), ⟨hs, w.heap⟩) := by
      intro w; simp only [namedEnv, hl]
    have hn := makesNew_load hm names hs hl
    rw [e1]
    simp only
    split
    · exact Nat.le_add_right _ _
    · unfold parseBodyStream
      simp only
      obtain ⟨k, g1, g2⟩ := h1.read (some 1)
      generalize r1.stream.read (some 1) = y at *
      rcases y with ⟨e | d, s1⟩
      · exact Nat.le_add_right _ _
      simp only [gaveAll] at g1 g2
      simp only
      split
      · cases queryDict (namedEnv ρ C up os mods names fuel64).C S1 none false <;> exact Nat.le_add_right _ _
      · have g3 := (g2.unget d).le g1
        generalize s1.unget d = y at *
        rcases y with ⟨e | _, s2⟩
        · exact Nat.le_add_right _ _
        simp only at g3 ⊢
        have key : ∀ r : Req ρ BWorld Uploaded, M.Has r.stream n →
            (((parseByType (namedEnv ρ C up os mods names fuel64) S1 (builtinOps ρ os hs.length) r
              ⟨hs, w.heap⟩).2.2.heap).map (·.data.length)).sum ≤ (w.heap.map (·.data.length)).sum + 2 * n := by
          intro r hr
          unfold parseByType
          cases r.contentType with
          | none => exact Nat.le_add_right _ _
          | some ct =>
            simp only
            split
            · have hf : (((parseFileUpload (namedEnv ρ C up os mods names fuel64) S1 (builtinOps ρ os hs.length) r
                  ⟨hs, w.heap⟩).2.2.heap).map (·.data.length)).sum ≤ (w.heap.map (·.data.length)).sum + 2 * n := by
                unfold parseFileUpload
                cases r.info.bind (·.headers) with
                | none => exact Nat.le_add_right _ _
                | some h =>
                  have e2 : (if (builtinOps ρ os hs.length).count = 0 then
                      (namedEnv ρ C up os mods names fuel64).load ⟨hs, w.heap⟩
                      else (.ok (builtinOps ρ os hs.length), ⟨hs, w.heap⟩)) =
                      (.ok (builtinOps ρ os hs.length), ⟨hs, w.heap⟩) := by
                    rw [e1]; simp
                  simp only [e2]
                  cases MultiPart.create (namedEnv ρ C up os mods names fuel64).C (builtinOps ρ os hs.length)
                      ((h.get? b!"Content-Type").bind List.getLast?) ((h.get? b!"Content-Length").bind List.getLast?) with
                  | error e => exact Nat.le_add_right _ _
                  | ok m => exact C128_bounded_partial hos hn _ S1 _ _ m hr w.heap
              generalize parseFileUpload (namedEnv ρ C up os mods names fuel64) S1 (builtinOps ρ os hs.length) r
                ⟨hs, w.heap⟩ = y at *
              rcases y with ⟨e | pf, r', w'⟩
              · split
                · rename_i heq; cases heq; exact hf
                · rename_i heq; cases heq; exact hf
                · rename_i heq; cases heq
              · exact hf
            · split
              · generalize bodyCore S1 r = y
                rcases y with ⟨e | b, r'⟩
                · exact Nat.le_add_right _ _
                · simp only
                  cases queryDict (namedEnv ρ C up os mods names fuel64).C S1 (some b) false <;> exact Nat.le_add_right _ _
              · cases queryDict (namedEnv ρ C up os mods names fuel64).C S1 none false <;> exact Nat.le_add_right _ _
        have k2 := key { r1 with stream := s2, handlers := some (builtinOps ρ os hs.length) } g3
        generalize parseByType (namedEnv ρ C up os mods names fuel64) S1 (builtinOps ρ os hs.length)
          { r1 with stream := s2, handlers := some (builtinOps ρ os hs.length) } ⟨hs, w.heap⟩ = y at *
        rcases y with ⟨e | _, r', w'⟩
        · exact k2
        · exact k2

end

/-! ### Examples -/

/-- The hypotheses of `C128_bounded_partial` can be met, in pieces of any size and with every limit. -/
example (k limit : Nat) (text : Bool) := C128_bounded_partial (M := Source.lawful.meter) (os := goodOs)
  (hs := [.conv {}, .temp {}, .memory {}]) (by simp [goodOs]) (by simp [NewHandler]) latinCodecs
  { fileMaxMemory := limit } 100 text ⟨b!"B", k, 1000⟩ (input := LazyStream.mk' ⟨[longBody]⟩) (SOK.fresh _).has []

/-- A body that arrives in four pieces; the object raises once, ends once, and goes on. -/
def tapeBody : Tape :=
  ⟨[.ok (some b!"--B\r\nContent-Disposition: form-data; name=\"f\"; filename=\"a.txt\"\r\n\r\n"), .ok none,
    .ok (some b!"hello"), .error .ioError, .ok (some b!"\r\n--B--")]⟩

example : tapeBody.bytes = 79 := by decide +kernel

example (text : Bool) := C128_bounded_partial (M := Tape.meter) (os := goodOs) (hs := [.temp {}]) (by simp [goodOs])
  (by simp [NewHandler]) latinCodecs {} 100 text ⟨b!"B", 3, 1000⟩ (input := LazyStream.mk' tapeBody)
  (.fresh (show tapeBody.bytes ≤ 79 by decide +kernel)) []

/-- With a boundary in the extended notation parsing stops at a byte outside ASCII; what came before stays. -/
example :
    let z := (⟨b!"B", 16, 1000⟩ : MultiPart).run latinCodecs {} (builtinOps Source goodOs 1) 100 true
      (LazyStream.mk' ⟨[b!"--B\r\nContent-Disposition: form-data; name=\"f\"; filename=\"a.txt\"\r\n\r\n",
        List.replicate 1200 120, [200], b!"\r\n--B--"]⟩) { hs := [.temp {}] }
    (match z.1 with | .error e => some e | .ok _ => none) = some .unicodeDecodeError ∧
      z.2.2.heap.map (·.data.length) = [1188] := by decide +kernel

/-- A whole request from such an object, whatever else is true of the request. -/
example (S : Settings) (r : Req Tape BWorld Uploaded) (hr : r.stream = LazyStream.mk' tapeBody) (w : BWorld) :=
  C128_request_partial (M := Tape.meter) (C := pyCodecs) (up := []) (os := goodOs) (names := defaultHandlers) (fuel64 := 0)
    (by simp [goodOs]) sampleModules_new S (r := r)
    (by rw [hr]; exact .fresh (show tapeBody.bytes ≤ 79 by decide +kernel)) w

end Verif
