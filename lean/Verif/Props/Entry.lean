import Verif.Proofs.Names
import Verif.Props.Trace
/-!
# C29, C31–C33, C68: constructing the parser, Content-Length, file names
-/

namespace Verif
open Spec

section
variable {ρ σ F : Type} [Producer ρ] {L : Lawful ρ}

/-! ### C29: Content-Length -/

/-- **C29.**  With a content length of 0 the result is empty and nothing happens: the stream is
untouched, no handler is called.  (The charset can decode the empty string and the field limit is
not negative; otherwise creating the empty POST dictionary fails.) -/
theorem C29_zero (C : Codecs) (S : Settings) (H : HandlerOps ρ σ F) (fuel64 : Nat)
    (m : MultiPart) (h0 : m.contentLength = 0) (input : LazyStream ρ) (w : σ)
    (hcs : ∃ t, C.decode S.defaultCharset [] = .ok t) (hf : ∀ n, S.maxFields = some n → 0 ≤ n) :
    m.parse C S (traced H) fuel64 input (w, []) = (.ok ([], []), input, w, []) := by
  have hq : emptyQueryDict C S = .ok () := by
    obtain ⟨t, ht⟩ := hcs
    unfold emptyQueryDict
    rw [ht]
    cases hm : S.maxFields with
    | none => rfl
    | some n => have := hf n hm; simp; omega
  simp [MultiPart.parse, h0, hq]

/-- The boundary as a list of code points, whichever string type it is. -/
def PyStr.points : PyStr → List Nat
  | .b s => Py.toU s
  | .u s => s

/-- `Content-Length` as the constructor reads it. -/
def lengthOf (cl : Option Bytes) : Int :=
  match cl with
  | none => 0
  | some l => (Py.parseInt l).getD 0

omit [Producer ρ] in
theorem create_ok_iff (C : Codecs) (H : HandlerOps ρ σ F) (ct cl : Option Bytes) (m : MultiPart) :
    MultiPart.create C H ct cl = .ok m ↔
    ∃ v opts b, Py.startsWith b!"multipart/" (ct.getD []) = true ∧ Py.isAscii (ct.getD []) = true ∧
      parseHeader C (ct.getD []) = .ok (v, opts) ∧ opts.get? b!"boundary" = some b ∧
      b.points ≠ [] ∧ validBoundary b.points = true ∧ 0 ≤ lengthOf cl ∧
      m = ⟨b.points.map UInt8.ofNat, chunkSizeOf H, (lengthOf cl).toNat⟩ := by
  unfold MultiPart.create
  simp only
  by_cases h1 : Py.startsWith b!"multipart/" (ct.getD []) = false
  · rw [if_pos h1]; simp [h1]
  rw [if_neg h1]
  by_cases h2 : Py.isAscii (ct.getD []) = false
  · rw [if_pos h2]; simp [h2]
  rw [if_neg h2]
  rw [Bool.not_eq_false] at h1 h2
  cases hp : parseHeader C (ct.getD []) with
  | error e => simp
  | ok q =>
    obtain ⟨v, opts⟩ := q
    simp only
    cases hb : opts.get? b!"boundary" with
    | none => 
      simp only [reduceCtorEq, false_iff]
      rintro ⟨v', o', b', _, _, h3, h4, _⟩
      simp only [Except.ok.injEq, Prod.mk.injEq] at h3
      rw [← h3.2, hb] at h4; simp at h4
    | some b =>
      have key : (∃ v' opts' b', Py.startsWith b!"multipart/" (ct.getD []) = true ∧ Py.isAscii (ct.getD []) = true ∧
          (.ok (v, opts) : Except Exc _) = .ok (v', opts') ∧ opts'.get? b!"boundary" = some b' ∧
          b'.points ≠ [] ∧ validBoundary b'.points = true ∧ 0 ≤ lengthOf cl ∧
          m = ⟨b'.points.map UInt8.ofNat, chunkSizeOf H, (lengthOf cl).toNat⟩) ↔
          (b.points ≠ [] ∧ validBoundary b.points = true ∧ 0 ≤ lengthOf cl ∧
          m = ⟨b.points.map UInt8.ofNat, chunkSizeOf H, (lengthOf cl).toNat⟩) := by
        constructor
        · rintro ⟨v', o', b', _, _, h3, h4, h5⟩
          simp only [Except.ok.injEq, Prod.mk.injEq] at h3
          rw [← h3.2, hb, Option.some.injEq] at h4
          rw [h4]; exact h5
        · intro h; exact ⟨v, opts, b, h1, h2, rfl, hb, h⟩
      rw [key]
      cases b with
      | b s =>
        simp only [PyStr.points]
        by_cases h5 : Py.toU s = [] ∨ validBoundary (Py.toU s) = false
        · rw [if_pos h5]
          simp only [reduceCtorEq, false_iff]
          rintro ⟨h6, h7, _⟩
          rcases h5 with h5 | h5
          · exact h6 h5
          · rw [h7] at h5; simp at h5
        rw [if_neg h5]
        simp only [not_or, Bool.not_eq_false] at h5
        change (if lengthOf cl < 0 then Except.error Exc.multiPartParserError else .ok ⟨List.map UInt8.ofNat (Py.toU s),
          chunkSizeOf H, (lengthOf cl).toNat⟩) = Except.ok m ↔ _
        split
        · rename_i hn
          simp only [reduceCtorEq, false_iff]
          rintro ⟨_, _, h6, _⟩; omega
        · rename_i hn
          simp only [Except.ok.injEq]
          constructor
          · intro h; exact ⟨h5.1, h5.2, by omega, h.symm⟩
          · intro h; exact h.2.2.2.symm
      | u s =>
        simp only [PyStr.points]
        by_cases h5 : s = [] ∨ validBoundary s = false
        · rw [if_pos h5]
          have : ∀ (c : Prop) [Decidable c], ¬ (if c then (.error .multiPartParserError : Except Exc MultiPart)
              else .error .unicodeEncodeError) = .ok m := by intro c _; split <;> simp
          refine ⟨fun h => absurd h (this _), ?_⟩
          rintro ⟨h6, h7, _⟩
          rcases h5 with h5 | h5
          · exact absurd h5 h6
          · rw [h7] at h5; simp at h5
        rw [if_neg h5]
        simp only [not_or, Bool.not_eq_false] at h5
        change (if lengthOf cl < 0 then Except.error Exc.multiPartParserError else .ok ⟨List.map UInt8.ofNat s,
          chunkSizeOf H, (lengthOf cl).toNat⟩) = Except.ok m ↔ _
        split
        · rename_i hn
          simp only [reduceCtorEq, false_iff]
          rintro ⟨_, _, h6, _⟩; omega
        · rename_i hn
          simp only [Except.ok.injEq]
          constructor
          · intro h; exact ⟨h5.1, h5.2, by omega, h.symm⟩
          · intro h; exact h.2.2.2.symm

omit [Producer ρ] in
/-- **C29**: what the constructor makes of the header.  Absent and unparsable values count as 0;
a negative value never gets a parser. -/
theorem C29_length (C : Codecs) (H : HandlerOps ρ σ F) (ct cl : Option Bytes) (m : MultiPart)
    (h : MultiPart.create C H ct cl = .ok m) :
    (cl = none → m.contentLength = 0) ∧
    (∀ l, cl = some l → Py.parseInt l = none → m.contentLength = 0) ∧
    (∀ l n, cl = some l → Py.parseInt l = some n → 0 ≤ n ∧ (m.contentLength : Int) = n) := by
  obtain ⟨v, opts, b, _, _, _, _, _, _, hn, rfl⟩ := (create_ok_iff C H ct cl m).1 h
  refine ⟨?_, ?_, ?_⟩
  · rintro rfl; rfl
  · rintro l rfl hl; simp [lengthOf, hl]
  · rintro l n rfl hl
    simp only [lengthOf, hl, Option.getD_some] at hn ⊢
    exact ⟨hn, Int.toNat_of_nonneg hn⟩

omit [Producer ρ] in
/-- **C29**: a negative length is a `MultiPartParserError`, for every request that would otherwise
get a parser. -/
theorem C29_negative (C : Codecs) (H : HandlerOps ρ σ F) (ct cl : Option Bytes) (m : MultiPart)
    (h : MultiPart.create C H ct cl = .ok m) (l : Bytes) (n : Int) (hl : Py.parseInt l = some n) (hn : n < 0) :
    MultiPart.create C H ct (some l) = .error .multiPartParserError := by
  obtain ⟨v, opts, b, h1, h2, h3, h4, h5, h6, _, _⟩ := (create_ok_iff C H ct cl m).1 h
  unfold MultiPart.create
  simp only [h1, h2, h3, h4, hl, Option.getD_some, if_pos hn, Bool.true_eq_false, if_false]
  cases b <;> simp only [PyStr.points] at h5 h6 <;> simp [h5, h6]

theorem rawInputLoop_ignores {H : HandlerOps ρ σ F} {a1 a2 : RawArgs}
    (h : ∀ i s w, H.rawInput i a1 s w = H.rawInput i a2 s w) : ∀ (is : List Nat) (s : LazyStream ρ) (w : σ),
    rawInputLoop H a1 is s w = rawInputLoop H a2 is s w := by
  intro is
  induction is with
  | nil => intro s w; rfl
  | cons i is ih =>
    intro s w
    simp only [rawInputLoop, h, ih]

/-- **C29** (partial: the full statement has no hypothesis on the handlers; it is false for
`MemoryFileUploadHandler`, see `C29_memory_refuted`).  Two positive content lengths give the same
result for handlers whose `handle_raw_input` ignores the content length. -/
theorem C29_positive_partial (C : Codecs) (S : Settings) (H : HandlerOps ρ σ F) (fuel64 : Nat)
    (boundary : Bytes) (chunkSize n1 n2 : Nat) (h1 : 0 < n1) (h2 : 0 < n2) (input : LazyStream ρ) (w : σ)
    (hH : ∀ i s w, H.rawInput i ⟨n1, boundary, S⟩ s w = H.rawInput i ⟨n2, boundary, S⟩ s w) :
    (⟨boundary, chunkSize, n1⟩ : MultiPart).parse C S H fuel64 input w =
    (⟨boundary, chunkSize, n2⟩ : MultiPart).parse C S H fuel64 input w := by
  unfold MultiPart.parse
  rw [if_neg (by simp; omega), if_neg (by simp; omega)]
  simp only
  rw [rawInputLoop_ignores hH]

/-- **C29**: whatever positive length the header says, a parse that returns has read the stream to
its end (unless a handler stopped the upload). -/
theorem C29_reads_all (C : Codecs) (S : Settings) (H : HandlerOps ρ σ F) (fuel64 : Nat)
    (m : MultiPart) (hc : 1 ≤ m.chunkSize) (hn : m.contentLength ≠ 0) (hl : LeavesParsing L H)
    (hH : ∀ b, H.Avoids (.stopUpload b)) (hC : ∀ b, C.Avoids (.stopUpload b))
    (hmem : ∀ k, S.dataMaxMemory = some k → 0 ≤ k)
    (input : LazyStream ρ) (w : σ) (hi : SOK L input) {p s' w'}
    (h : m.parse C S H fuel64 input w = (.ok p, s', w')) : L.sc s' = [] := by
  have hq0 : emptyQueryDict C S = .ok () → S.maxFields.any (· < 0) = false := by
    intro hq
    unfold emptyQueryDict at hq
    by_contra hx
    rw [Bool.not_eq_false] at hx
    rw [hx] at hq
    simp only [if_true] at hq
    split at hq
    · split at hq <;> simp at hq
    · simp at hq
  rcases parse_elim C S H fuel64 m hc hl input w hi with
    ⟨e, _, _, h1, _⟩ | ⟨h0, hq, h1⟩ | ⟨h0, hq, input1, w1, r, D', st', s2, R, w2, _, h2, _, h3, h4, h5, h6⟩
  · rw [h] at h1; simp at h1
  · exact absurd h0 hn
  · rw [h] at h3
    simp only [Prod.mk.injEq] at h3
    rw [← h3.1] at h5
    cases r with
    | ok u => rw [h3.2.1]; exact (h6 rfl).2
    | error e =>
      exfalso
      unfold endParse at h5
      split at h5
      · rename_i heq; simp at heq
      · rename_i heq
        rename_i b
        simp only [Except.error.injEq] at heq
        have hw : Within S (PState.start H w1) := ⟨by
          cases hd : S.dataMaxMemory with
          | none => rfl
          | some k => have := hmem k hd; simp [PState.start]; omega, hq0 hq⟩
        rcases h4.err (hH b) (hC b) (by rw [heq]) hw with h | ⟨h, _⟩
        · simp [ParserExc] at h
        · simp at h
      · simp at h5

end

/-- A small upload. -/
def oneFile : Bytes :=
  b!"--B\r\nContent-Disposition: form-data; name=\"f\"; filename=\"a.txt\"\r\n\r\nhello\r\n--B--\r\n"

/-- **C29 is false** as stated: with `MemoryFileUploadHandler` as only handler the same body gives
a file for Content-Length 100 and no file for Content-Length 2 ** 30. -/
theorem C29_memory_refuted :
    let run (n : Nat) := match ((⟨b!"B", 64, n⟩ : MultiPart).parse latinCodecs {} (builtinOps Source goodOs 1) 100
        (LazyStream.mk' ⟨[oneFile]⟩) { hs := [.memory {}] }).1 with
      | .ok (_, files) => some (items files).length
      | .error _ => none
    run 100 = some 1 ∧ run (2 ^ 30) = some 0 := by
  decide +kernel

/-! ### C33: chunk size -/

section
variable {ρ σ F : Type} [Producer ρ]

theorem foldl_min_le (l : List Nat) : ∀ a, (l.foldl min a ≤ a ∧ ∀ x ∈ l, l.foldl min a ≤ x) ∧
    (l.foldl min a = a ∨ l.foldl min a ∈ l) := by
  induction l with
  | nil => intro a; simp
  | cons y l ih =>
    intro a
    obtain ⟨⟨h1, h2⟩, h3⟩ := ih (min a y)
    refine ⟨⟨?_, ?_⟩, ?_⟩
    · simp only [List.foldl_cons]; omega
    · intro x hx
      rcases List.mem_cons.1 hx with rfl | hx
      · simp only [List.foldl_cons]; omega
      · exact h2 x hx
    · simp only [List.foldl_cons, List.mem_cons]
      rcases h3 with h3 | h3
      · rcases Nat.le_total a y with h | h
        · left; rw [h3]; omega
        · right; left; rw [h3]; omega
      · right; right; exact h3

/-- **C33.**  The chunk size of a constructed parser is the least of `2 ** 31 - 4` and the sizes
the handlers ask for (a handler may ask for nothing: `None` or 0). -/
theorem C33_chunk_size (C : Codecs) (H : HandlerOps ρ σ F) (ct cl : Option Bytes) (m : MultiPart)
    (h : MultiPart.create C H ct cl = .ok m) :
    m.chunkSize ≤ 2 ^ 31 - 4 ∧ 1 ≤ m.chunkSize ∧
    (∀ i < H.count, ∀ n, H.chunkSize i = some n → n ≠ 0 → m.chunkSize ≤ n) ∧
    (m.chunkSize = 2 ^ 31 - 4 ∨ ∃ i < H.count, H.chunkSize i = some m.chunkSize) := by
  have hm : m.chunkSize = chunkSizeOf H := by
    obtain ⟨_, _, _, _, _, _, _, _, _, _, rfl⟩ := (create_ok_iff C H ct cl m).1 h
    rfl
  rw [hm]
  unfold chunkSizeOf
  obtain ⟨⟨h1, h2⟩, h3⟩ := foldl_min_le
    ((List.range H.count).filterMap (fun i => (H.chunkSize i).filter (· ≠ 0))) (2 ^ 31 - 4)
  have hmem : ∀ n, n ∈ (List.range H.count).filterMap (fun i => (H.chunkSize i).filter (· ≠ 0)) ↔
      ∃ i < H.count, H.chunkSize i = some n ∧ n ≠ 0 := by
    intro n
    simp only [List.mem_filterMap, List.mem_range, Option.filter_eq_some_iff, decide_eq_true_eq]
  refine ⟨h1, ?_, ?_, ?_⟩
  · rcases h3 with h3 | h3
    · rw [h3]; decide
    · obtain ⟨_, _, _, h⟩ := (hmem _).1 h3; omega
  · intro i hi n hn hn0
    exact h2 n ((hmem n).2 ⟨i, hi, hn, hn0⟩)
  · rcases h3 with h3 | h3
    · exact .inl h3
    · obtain ⟨i, hi, h, _⟩ := (hmem _).1 h3
      exact .inr ⟨i, hi, h⟩

end

/-- Every read of the body asks for and gets at most this many bytes. -/
theorem C33_reads {ρ : Type} [Producer ρ] (L : Lawful ρ) (input : LazyStream ρ) (n : Nat) (hn : 1 ≤ n)
    (hi : SOK L input) {b : Bytes} {p' : ChunkIter ρ}
    (h : Producer.next (⟨input, n⟩ : ChunkIter ρ) = (.ok (some b), p')) : b.length ≤ n := by
  change ChunkIter.next _ = _ at h
  unfold ChunkIter.next at h
  obtain ⟨s1, a1, _, _, _⟩ := hi.read n
  simp only [a1, Prod.mk.injEq, Except.ok.injEq] at h
  split at h
  · obtain ⟨h, _⟩ := h
    simp only [Option.some.injEq] at h
    subst h
    simp
  · simp at h

example : chunkSizeOf (builtinOps Source goodOs 3) = 65536 := by decide

/-! ### C31: file names -/

theorem Builtin.rawInput_plain (a : RawArgs) (b : Builtin) (h : b.Plain) : (b.rawInput a).Plain := by
  cases b with
  | memory m => exact h
  | temp t => exact h
  | conv c =>
    simp only [Builtin.rawInput, ConvH.rawInput]
    split
    · exact h
    · exact h

theorem builtin_rawInputLoop {ρ : Type} (os : Os) (n : Nat) (a : RawArgs) :
    ∀ (is : List Nat) (s : LazyStream ρ) (w : BWorld), w.Plain →
    ∃ w1, w1.Plain ∧ (rawInputLoop (builtinOps ρ os n) a is s w = (.ok none, s, w1) ∨
      ∃ e, rawInputLoop (builtinOps ρ os n) a is s w = (.error e, s, w1)) := by
  intro is
  induction is with
  | nil => intro s w h; exact ⟨w, h, .inl rfl⟩
  | cons i is ih =>
    intro s w h
    have h1 : (w.on i (fun b h => (.ok (), b.rawInput a, h))).2.Plain :=
      BWorld.on_plain h (fun b heap hb => Builtin.rawInput_plain a b hb)
    simp only [rawInputLoop, builtinOps]
    generalize w.on i (fun b h => (.ok (), b.rawInput a, h)) = z at *
    rcases z with ⟨(e | _), w1⟩
    · exact ⟨w1, h1, .inr ⟨e, rfl⟩⟩
    · exact ih s w1 h1

theorem dispositionFileName_plain {d : Dict Bytes PyStr} {fn : Bytes} (h : dispositionFileName d = .ok fn) :
    92 ∉ fn := by
  unfold dispositionFileName at h
  split at h
  · split at h
    · unfold fileNameOf at h
      split at h
      · simp at h
      · split at h
        · simp at h
        · simp only [Except.ok.injEq] at h
          subst h; exact ieSanitize_no_backslash _
    · simp only [Except.ok.injEq] at h; subst h; simp
  · simp only [Except.ok.injEq] at h; subst h; simp

/-- **C31.**  Files stored by the built-in handlers (in any order and number, freshly created or
used before for multipart bodies) have names without `/` and backslash, of at most 255 bytes, for
every body, boundary, chunk size and every kind of input stream. -/
theorem C31_names {ρ : Type} [Producer ρ] (C : Codecs) (S : Settings) (os : Os) (n fuel64 : Nat)
    (m : MultiPart) (input s' : LazyStream ρ) (w w' : BWorld) (hw : w.Plain)
    {post : MVD PostItem} {files : MVD Uploaded}
    (h : m.parse C S (builtinOps ρ os n) fuel64 input w = (.ok (post, files), s', w')) :
    (∀ p ∈ items files, 47 ∉ p.2.name ∧ 92 ∉ p.2.name ∧ p.2.name.length ≤ 255) ∧ w'.Plain := by
  by_cases hl : m.contentLength = 0
  · unfold MultiPart.parse at h
    rw [if_pos hl] at h
    split at h
    · simp at h
    · simp only [Prod.mk.injEq, Except.ok.injEq] at h
      rw [← h.1.2, ← h.2.2]
      exact ⟨by simp [items], hw⟩
  obtain ⟨w1, hw1, hr | ⟨e, hr⟩⟩ := builtin_rawInputLoop os n
    { contentLength := m.contentLength, boundary := m.boundary, settings := S }
    (List.range (builtinOps ρ os n).count) input w hw
  · have := parse_keeps (builtin_plain (ρ := ρ) os n)
      (fun name fn te md d hd _ => dispositionFileName_plain hd) C S fuel64 m hl input input w w1 hr hw1
    rw [h] at this
    exact ⟨this.2 post files rfl, this.1⟩
  · unfold MultiPart.parse at h
    rw [if_neg hl, hr] at h
    simp at h

/-- Fresh handlers satisfy the hypothesis of `C31_names`. -/
example : BWorld.Plain { hs := [.memory {}, .temp {}, .conv {}] } := by
  intro b hb
  simp only [List.mem_cons, List.not_mem_nil, or_false] at hb
  rcases hb with rfl | rfl | rfl
  · intro a h; simp at h
  · intro a h; simp at h
  · exact ⟨fun a h => by simp at h, fun a h => by simp at h⟩

/-- **C31**: other handlers build `UploadedFile` objects themselves; the name the object keeps has
no `/` and at most 255 bytes whatever is passed. -/
theorem C31_set_name (n : Bytes) : 47 ∉ setName n ∧ (setName n).length ≤ 255 ∧ (92 ∉ n → 92 ∉ setName n) :=
  ⟨fun hc => basename_no_slash n (setName_subset n _ hc), setName_length n, fun h => (setName_plain h).2.1⟩

example : setName b!"../../etc/passwd" = b!"passwd" := by decide

/-- No name with a backslash is announced. -/
def Spec.NoBackslash {F : Type} (log : List (Ev F)) : Prop :=
  ∀ i a, Ev.newFile i a ∈ log → 92 ∉ a.fileName

theorem traced_noBackslash {ρ σ F : Type} (H : HandlerOps ρ σ F) :
    (traced H).Keeps (fun w => NoBackslash w.2) (fun _ => True) (fun a => 92 ∉ a.fileName) := by
  have key : ∀ (log : List (Ev F)) (e : Ev F), NoBackslash log → (∀ i a, e = .newFile i a → 92 ∉ a.fileName) →
      NoBackslash (log ++ [e]) := by
    intro log e h he i a hm
    rcases List.mem_append.1 hm with hm | hm
    · exact h i a hm
    · simp only [List.mem_singleton] at hm
      exact he i a hm.symm
  constructor
  · refine newFiles_of_newFile ?_
    intro i a w h ha
    refine key _ _ h ?_
    intro i' a' e
    simp only [Ev.newFile.injEq] at e
    rw [← e.2]; exact ha
  · intro i d n w h; exact key _ _ h (by simp)
  · intro i n w h; exact key _ _ h (by simp)
  · intros; trivial
  · intro i w h; exact key _ _ h (by simp)
  · intro i w h; exact key _ _ h (by simp)

theorem rawInputLoop_log {ρ σ F : Type} (H : HandlerOps ρ σ F) (args : RawArgs) :
    ∀ (is : List Nat) (s : LazyStream ρ) (w : σ × List (Ev F)), NoBackslash w.2 →
    NoBackslash (rawInputLoop (traced H) args is s w).2.2.2 := by
  intro is
  induction is with
  | nil => intro s w h; exact h
  | cons i is ih =>
    intro s w h
    have h1 : NoBackslash (w.2 ++ [(.raw i : Ev F)]) := by
      intro j a hj; simp at hj; exact h j a hj
    simp only [rawInputLoop, traced]
    rcases H.rawInput i args s w.1 with ⟨(e | (_ | r)), s', w'⟩
    · exact h1
    · exact ih s' (w', _) h1
    · exact h1

/-- **C31**: the parser never passes a name with a backslash to any handler. -/
theorem C31_handlers {ρ σ F : Type} [Producer ρ] (C : Codecs) (S : Settings) (H : HandlerOps ρ σ F)
    (fuel64 : Nat) (m : MultiPart) (input : LazyStream ρ) (w : σ) :
    NoBackslash (m.parse C S (traced H) fuel64 input (w, [])).2.2.2 := by
  have h0 : NoBackslash ([] : List (Ev F)) := by intro i a h; simp at h
  by_cases hl : m.contentLength = 0
  · unfold MultiPart.parse
    rw [if_pos hl]
    split <;> exact h0
  have h1 := rawInputLoop_log H { contentLength := m.contentLength, boundary := m.boundary, settings := S }
    (List.range (traced H).count) input (w, []) h0
  rcases hr : rawInputLoop (traced H) { contentLength := m.contentLength, boundary := m.boundary, settings := S }
    (List.range (traced H).count) input (w, []) with ⟨(e | (_ | r)), s1, w1⟩
  · rw [hr] at h1
    unfold MultiPart.parse
    rw [if_neg hl, hr]; exact h1
  · rw [hr] at h1
    exact (parse_keeps (traced_noBackslash H)
      (fun name fn te md d hd _ => dispositionFileName_plain hd) C S fuel64 m hl input s1 (w, []) w1 hr h1).1
  · rw [hr] at h1
    unfold MultiPart.parse
    rw [if_neg hl, hr]; exact h1

/-- A file whose name ends in a slash, one whose name is `..`, and one hiding in backslashes. -/
def oddNames : Bytes :=
  b!"--B\r\nContent-Disposition: form-data; name=\"f\"; filename=\"a/\"\r\n\r\nx\r\n--B\r\nContent-Disposition: form-data; name=\"g\"; filename=\"../..\"\r\n\r\nx\r\n--B\r\nContent-Disposition: form-data; name=\"h\"; filename=\"C:/x/..&#92;a/b.txt\"\r\n\r\nx\r\n--B--\r\n"

/-- **C68 is false**: names of stored files can be empty and can be `..`. -/
theorem C68_refuted :
    (match ((⟨b!"B", 64, 100⟩ : MultiPart).parse latinCodecs {} (builtinOps Source goodOs 1) 100
        (LazyStream.mk' ⟨[oddNames]⟩) { hs := [.memory {}] }).1 with
      | .ok (_, files) => (items files).map (fun p => (p.1, p.2.name))
      | .error _ => []) = [(b!"f", b!""), (b!"g", b!".."), (b!"h", b!"b.txt")] := by
  decide +kernel

/-! ### C32: parameters that make no sense -/

/-- A boundary as `cgi.valid_boundary` wants it: at most 200 printable ASCII characters and a last
one that is not a space; a newline may follow. -/
def Spec.BoundaryOk (s : List Nat) : Prop :=
  ∃ t c, (s = t ++ [c] ∨ s = t ++ [c, 10]) ∧ t.length ≤ 200 ∧ (∀ x ∈ t, 32 ≤ x ∧ x ≤ 126) ∧ 33 ≤ c ∧ c ≤ 126

theorem validBoundary_iff (s : List Nat) : validBoundary s = true ↔ BoundaryOk s := by
  have core : ∀ t : List Nat, (decide (t.length ≤ 201) && t.all (fun c => 32 ≤ c && c ≤ 126) &&
      (match t.getLast? with
        | some c => decide (c ≠ 32)
        | none => false)) = true ↔
      ∃ u c, t = u ++ [c] ∧ u.length ≤ 200 ∧ (∀ x ∈ u, 32 ≤ x ∧ x ≤ 126) ∧ 33 ≤ c ∧ c ≤ 126 := by
    intro t
    rcases List.eq_nil_or_concat t with rfl | ⟨u, c, rfl⟩
    · simp
    · simp only [List.concat_eq_append, List.length_append, List.length_cons, List.length_nil,
        List.getLast?_append, List.getLast?_singleton, Option.some_or, List.all_append,
        Bool.and_eq_true, decide_eq_true_eq, List.all_eq_true, List.all_cons, List.all_nil, and_true]
      constructor
      · rintro ⟨⟨h1, h2, h3, h4⟩, h5⟩
        exact ⟨u, c, rfl, by omega, h2, by omega, h4⟩
      · rintro ⟨u', c', h1, h2, h3, h4, h5⟩
        obtain ⟨rfl, h⟩ := List.append_inj' h1 rfl
        simp only [List.cons.injEq, and_true] at h
        subst h
        exact ⟨⟨by omega, h3, by omega, h5⟩, by omega⟩
  unfold validBoundary BoundaryOk
  refine (core _).trans ?_
  split
  · rename_i hl
    obtain ⟨u, hu⟩ := List.getLast?_eq_some_iff.1 hl
    subst hu
    simp only [List.dropLast_concat]
    constructor
    · rintro ⟨t, c, rfl, h⟩
      exact ⟨t, c, .inr (by simp), h⟩
    · rintro ⟨t, c, h1 | h1, h⟩
      · obtain ⟨rfl, h2⟩ := List.append_inj' h1 rfl
        simp only [List.cons.injEq, and_true] at h2
        omega
      · rw [show t ++ [c, 10] = (t ++ [c]) ++ [10] by simp] at h1
        exact ⟨t, c, (List.append_inj' h1 rfl).1, h⟩
  · rename_i hl
    constructor
    · rintro ⟨t, c, rfl, h⟩
      exact ⟨t, c, .inl rfl, h⟩
    · rintro ⟨t, c, h1 | h1, h⟩
      · exact ⟨t, c, h1, h⟩
      · subst h1
        exact absurd (by simp) hl

/-- **C32** (partial: the full statement also covers a missing boundary parameter, which raises
`AttributeError`, see `C32_missing_refuted`, and base64 data, see `C32_base64_refuted`).  An ASCII
content type starting with `multipart/` whose parameters parse and include a plain `boundary=`
gives a parser or a `MultiPartParserError`; the latter exactly for an unusable boundary or a
negative content length. -/
theorem C32_boundary_partial {ρ σ F : Type} (C : Codecs) (H : HandlerOps ρ σ F) (ct : Bytes)
    (cl : Option Bytes) (h1 : Py.startsWith b!"multipart/" ct = true) (h2 : Py.isAscii ct = true)
    {v : Bytes} {opts : Dict Bytes PyStr} (h3 : parseHeader C ct = .ok (v, opts)) {b : Bytes}
    (h4 : opts.get? b!"boundary" = some (.b b)) :
    ((¬ BoundaryOk (Py.toU b) ∨ ∃ l n, cl = some l ∧ Py.parseInt l = some n ∧ n < 0) →
      MultiPart.create C H (some ct) cl = .error .multiPartParserError) ∧
    (¬ (¬ BoundaryOk (Py.toU b) ∨ ∃ l n, cl = some l ∧ Py.parseInt l = some n ∧ n < 0) →
      ∃ m, MultiPart.create C H (some ct) cl = .ok m) := by
  have hne : BoundaryOk (Py.toU b) → Py.toU b ≠ [] := by
    rintro ⟨t, c, h | h, _⟩ e <;> simp [h] at e
  have hneg : lengthOf cl < 0 ↔ ∃ l n, cl = some l ∧ Py.parseInt l = some n ∧ n < 0 := by
    unfold lengthOf
    cases cl with
    | none => simp
    | some l =>
      cases hp : Py.parseInt l with
      | none => simp [hp]
      | some n => simp [hp]
  rw [← hneg]
  constructor
  · intro h
    unfold MultiPart.create
    simp only [Option.getD_some, h1, h2, h3, h4, Bool.true_eq_false, if_false]
    split
    · rfl
    · rename_i hv
      simp only [not_or, Bool.not_eq_false] at hv
      rcases h with h | h
      · exact absurd ((validBoundary_iff _).1 hv.2) h
      · rw [if_pos (by exact h)]
  · intro h
    rw [not_or, not_not, not_lt] at h
    exact ⟨_, (create_ok_iff C H (some ct) cl _).2 ⟨v, opts, .b b, h1, h2, h3, h4, hne h.1,
      (validBoundary_iff _).2 h.1, h.2, rfl⟩⟩

/-- **C32**: a content type that is not `multipart/…` is rejected. -/
theorem C32_not_multipart {ρ σ F : Type} (C : Codecs) (H : HandlerOps ρ σ F) (ct cl : Option Bytes)
    (h : Py.startsWith b!"multipart/" (ct.getD []) = false) :
    MultiPart.create C H ct cl = .error .multiPartParserError := by
  unfold MultiPart.create
  simp only
  rw [if_pos h]

/-- **C32 is false**: without a boundary parameter the error is an `AttributeError` (for every
codec table and every list of handlers). -/
theorem C32_missing_refuted {ρ σ F : Type} (C : Codecs) (H : HandlerOps ρ σ F) (cl : Option Bytes) :
    MultiPart.create C H (some b!"multipart/form-data") cl = .error .attributeError ∧
    MultiPart.create C H (some b!"multipart/form-data; boundary=") cl = .error .multiPartParserError :=
  ⟨rfl, rfl⟩

/-- A base64 file with one character too many. -/
def badBase64 : Bytes :=
  b!"--B\r\nContent-Disposition: form-data; name=\"f\"; filename=\"a\"\r\nContent-Transfer-Encoding: base64\r\n\r\nYWJjZ===\r\n--B--\r\n"

/-- **C32 is false**: undecodable base64 file data raises `TypeError`. -/
theorem C32_base64_refuted :
    (match ((⟨b!"B", 64, 100⟩ : MultiPart).parse latinCodecs {} (builtinOps Source goodOs 1) 100
        (LazyStream.mk' ⟨[badBase64]⟩) { hs := [.memory {}] }).1 with
      | .error .typeError => true
      | _ => false) = true := by
  decide +kernel

end Verif
