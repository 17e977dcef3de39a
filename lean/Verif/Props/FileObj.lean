import Verif.Model.FileObj
import Verif.Props.File
/-!
# Uploaded files as objects (C88-C90)
-/

namespace Verif
open Spec

/-! ### C88: `multiple_chunks()` and `chunks()` -/

theorem pieces_count {size : Nat} {s : Bytes} {ps : List Bytes} (h : Pieces size s ps) :
    1 < ps.length ↔ size < s.length := by
  obtain ⟨h1, h2, h3, h4⟩ := h
  subst h1
  match ps with
  | [] => simp
  | [a] => simpa using h4 a (by simp)
  | a :: b :: t =>
    have ha : a.length = size := h3 a (by simp [List.dropLast])
    have hb : 0 < b.length := List.length_pos_iff.2 (h2 b (by simp))
    simp only [List.length_cons, List.flatten_cons, List.length_append]
    omega

/-- **C88**.  For an uploaded file of either kind whose size is that of its content, and every chunk size that is
not negative (`None` and 0 mean 64 KiB), `multiple_chunks(n)` says whether `chunks(n)` yields more than one
piece. -/
theorem C88_multiple (f : FileO) (hc : f.cls ≠ .plain) (hs : f.size = .int f.file.content.length)
    (ho : f.closed = false) (hk : f.file.seek = .works) (n : Option Int) (hn : 0 ≤ n.getD 0) :
    ∃ cs g, f.chunks n = .ok (cs, g) ∧ cs.flatten = f.file.content ∧
      (f.multipleChunks n = true ↔ 1 < cs.length) := by
  unfold FileO.chunks FileO.multipleChunks
  simp only [ho]
  cases hcl : f.cls with
  | plain => exact absurd hcl hc
  | memory =>
    refine ⟨_, _, rfl, ?_, ?_⟩
    · rw [C64_memory]; simp
    · rw [C64_memory]; simp
  | temp =>
    have hpos : 0 < chunkSizeOr n := by
      cases n with
      | none => decide
      | some m =>
        simp only [Option.getD_some] at hn
        simp only [chunkSizeOr]
        split
        · decide
        · omega
    obtain ⟨ps, h1, h2⟩ := C64_chunks f.file hk n (chunkSizeOr n).toNat (by omega) (by omega)
    refine ⟨ps, _, by simp only [h1]; rfl, h2.whole, ?_⟩
    rw [pieces_count h2, hs]
    simp only [decide_eq_true_eq]
    omega

example : (temporaryUploaded b!"a" b!"abcdefgh" 8).multipleChunks (some 7) = true ∧
    (temporaryUploaded b!"a" b!"abcdefgh" 8).multipleChunks (some 8) = false := by decide +kernel

example := C88_multiple (temporaryUploaded b!"a" b!"abcdefgh" 8) (by decide) rfl rfl rfl (some 7) (by decide)

/-- A file that has been closed does not yield chunks, whatever its class and the chunk size: `ValueError`. -/
theorem C88_closed (f : FileO) (n : Option Int) : f.close.chunks n = .error .valueError := by
  unfold FileO.chunks FileO.close
  rw [if_pos rfl]

/-- The restrictions are needed: a plain `File` always claims several chunks, and so does an uploaded file for
a negative chunk size, for which everything is read in one piece. -/
theorem C88_needed :
    (∀ f : FileO, f.cls = .plain → f.size = .method → ∀ n, f.multipleChunks n = true) ∧
    (∀ (f : FileO) (n : Int), f.cls = .temp → f.size = .int f.file.content.length → f.closed = false →
      f.file.seek = .works → n < 0 → f.multipleChunks (some n) = true ∧
      ∃ cs g, f.chunks (some n) = .ok (cs, g) ∧ cs.length ≤ 1) := by
  refine ⟨fun f h1 h2 n => by simp [FileO.multipleChunks, h1, h2], fun f n h1 h2 h3 h4 h5 => ⟨?_, ?_⟩⟩
  · have e : chunkSizeOr (some n) = n := by simp only [chunkSizeOr]; rw [if_neg (by omega)]
    simp only [FileO.multipleChunks, h1, h2, decide_eq_true_eq, e]
    omega
  · obtain ⟨cs, g, a1, _, a2⟩ := C64_negative f.file h4 n h5
    refine ⟨cs, { f with file := g }, ?_, a2⟩
    unfold FileO.chunks
    simp only [h3, h1, a1]
    rfl

/-! ### C89: reopening -/

/-- **C89, the part that holds**: `open()` on an open file rewinds it and changes nothing else; on a closed file in
memory, or a closed one whose name does not exist in the working directory, it raises `ValueError` and changes
nothing.  Missing: a closed file on disk whose name exists (`C89_refuted`). -/
theorem C89_partial (f : FileO) (mode : Option Bytes) (cwd : Cwd) :
    (f.closed = false → f.file.seek = .works →
      f.reopen mode cwd = (.ok { f with file := { f.file with pos := 0 } }, cwd)) ∧
    (f.closed = true → f.cls = .memory → f.reopen mode cwd = (.error .valueError, cwd)) ∧
    (f.closed = true → (∀ n, f.name = some n → cwd n = .absent) → f.reopen mode cwd = (.error .valueError, cwd)) := by
  unfold FileO.reopen FileO.rewind
  refine ⟨fun h1 h2 => ?_, fun h1 h2 => ?_, fun h1 h2 => ?_⟩
  · cases hc : f.cls <;> simp [h1, h2]
  · simp [h1, h2]
  · have hn : ¬ (f.name.getD [] ≠ [] ∧ cwd (f.name.getD []) ≠ .absent) := by
      rintro ⟨a, b⟩
      cases hname : f.name with
      | none => rw [hname] at a; exact a rfl
      | some n => rw [hname] at b; exact b (h2 n hname)
    cases hc : f.cls
    · simp only [h1]; rw [if_neg (by simp), if_neg hn]
    · simp only [h1]; rw [if_neg (by simp), if_neg hn]
    · simp [h1]

/-- **C89 is false of the code**: when an uploaded file on disk is closed and opened again, the file of the working
directory that has the name the client chose is opened in its place, and emptied. -/
theorem C89_refuted (name content other : Bytes) (size : Int) (hn : name ≠ []) (cwd : Cwd)
    (h : cwd name = .file other) :
    ∃ f cwd', (temporaryUploaded name content size).close.reopen none cwd = (.ok f, cwd') ∧
      f.file.content = [] ∧ cwd' name = .file [] := by
  refine ⟨{ temporaryUploaded name content size with file := { content := [] } },
    fun n => if n = name then .file [] else cwd n, ?_, ?_, ?_⟩
  · unfold FileO.reopen FileO.close temporaryUploaded
    simp only
    rw [if_neg (by simp), if_pos ⟨by simpa using hn, by simp [h]⟩]
    simp only [Option.getD_none, openFile, Option.getD_some, h]
    rfl
  · rfl
  · simp

/-- Opening for reading hands out the other file's content as that of the upload. -/
theorem C89_other (name content other : Bytes) (size : Int) (hn : name ≠ []) (cwd : Cwd)
    (h : cwd name = .file other) :
    ∃ f, (temporaryUploaded name content size).close.reopen (some b!"rb") cwd = (.ok f, cwd) ∧
      f.file.content = other := by
  refine ⟨{ temporaryUploaded name content size with file := { content := other } }, ?_, ?_⟩
  · unfold FileO.reopen FileO.close temporaryUploaded
    simp only
    rw [if_neg (by simp), if_pos ⟨by simpa using hn, by simp [h]⟩]
    simp only [openFile, Option.getD_some, h]
    rfl
  · rfl

namespace Spec

/-- What `f.open(mode)` gives, and the working directory afterwards. -/
inductive Reopened (f : FileO) (mode : Option Bytes) (cwd : Cwd) : Except Exc FileO → Cwd → Prop where
  /-- an open file is rewound -/
  | rewound : f.closed = false → f.file.seek = .works →
      Reopened f mode cwd (.ok { f with file := { f.file with pos := 0 } }) cwd
  /-- an open file that cannot be rewound: what `seek` raises -/
  | missing : f.closed = false → f.file.seek = .missing → Reopened f mode cwd (.error .attributeError) cwd
  | unsupported : f.closed = false → f.file.seek = .unsupported → Reopened f mode cwd (.error .valueError) cwd
  | fails : f.closed = false → f.file.seek = .fails → Reopened f mode cwd (.error .ioError) cwd
  /-- a closed file in memory, or without a name, or with a name that does not exist -/
  | memory : f.closed = true → f.cls = .memory → Reopened f mode cwd (.error .valueError) cwd
  | unnamed : f.closed = true → (∀ n, f.name = some n → n = [] ∨ cwd n = .absent) →
      Reopened f mode cwd (.error .valueError) cwd
  /-- the mode to open it with is the one given, unless that is empty, and else the one of the file -/
  | noMode (n) : f.closed = true → f.cls ≠ .memory → f.name = some n → n ≠ [] → cwd n ≠ .absent →
      (mode = none ∨ mode = some []) → f.mode = none → Reopened f mode cwd (.error .attributeError) cwd
  | badMode (n m) : f.closed = true → f.cls ≠ .memory → f.name = some n → n ≠ [] → cwd n ≠ .absent →
      ((mode = some m ∧ m ≠ []) ∨ ((mode = none ∨ mode = some []) ∧ f.mode = some m)) →
      (∀ c t, m = c :: t → c ∉ b!"rwa") → Reopened f mode cwd (.error .valueError) cwd
  | directory (n m c t) : f.closed = true → f.cls ≠ .memory → f.name = some n → n ≠ [] → cwd n = .dir →
      ((mode = some m ∧ m ≠ []) ∨ ((mode = none ∨ mode = some []) ∧ f.mode = some m)) →
      m = c :: t → c ∈ b!"rwa" → Reopened f mode cwd (.error .ioError) cwd
  /-- the file of the working directory with that name: emptied, to be read, or to be added to -/
  | emptied (n m t o) : f.closed = true → f.cls ≠ .memory → f.name = some n → n ≠ [] → cwd n = .file o →
      ((mode = some m ∧ m ≠ []) ∨ ((mode = none ∨ mode = some []) ∧ f.mode = some m)) → m = 119 :: t →
      Reopened f mode cwd (.ok { f with file := { content := [] }, closed := false })
        (fun x => if x = n then .file [] else cwd x)
  | other (n m t o) : f.closed = true → f.cls ≠ .memory → f.name = some n → n ≠ [] → cwd n = .file o →
      ((mode = some m ∧ m ≠ []) ∨ ((mode = none ∨ mode = some []) ∧ f.mode = some m)) → m = 114 :: t →
      Reopened f mode cwd (.ok { f with file := { content := o }, closed := false }) cwd
  | added (n m t o) : f.closed = true → f.cls ≠ .memory → f.name = some n → n ≠ [] → cwd n = .file o →
      ((mode = some m ∧ m ≠ []) ∨ ((mode = none ∨ mode = some []) ∧ f.mode = some m)) → m = 97 :: t →
      Reopened f mode cwd (.ok { f with file := { content := o, pos := o.length }, closed := false }) cwd

end Spec

/-- **C89, what happens in every case**: the file that `open()` gives and what it does to the working directory. -/
theorem C89_exact (f : FileO) (mode : Option Bytes) (cwd : Cwd) :
    Spec.Reopened f mode cwd (f.reopen mode cwd).1 (f.reopen mode cwd).2 := by
  have key : f.closed = true → f.cls ≠ .memory → ∀ n, f.name = some n → n ≠ [] → cwd n ≠ .absent → ∀ m,
      ((mode = some m ∧ m ≠ []) ∨ ((mode = none ∨ mode = some []) ∧ f.mode = some m)) →
      ∀ r, (match openFile cwd n m with
        | .error e => ((.error e : Except Exc FileO), cwd)
        | .ok (g, cwd) => (.ok { f with file := g, closed := false }, cwd)) = r →
      Spec.Reopened f mode cwd r.1 r.2 := by
    rintro h1 h2 n hn hne hab m hm r rfl
    unfold openFile
    cases m with
    | nil => exact .badMode n [] h1 h2 hn hne hab hm (by simp)
    | cons c t =>
      simp only
      by_cases hc : c ∈ b!"rwa"
      · rw [if_neg (fun h => h hc)]
        cases hf : cwd n with
        | absent => exact absurd hf hab
        | dir => exact .directory n _ c t h1 h2 hn hne hf hm rfl hc
        | file o =>
          simp only [List.mem_cons, List.not_mem_nil, or_false] at hc
          rcases hc with rfl | rfl | rfl
          · exact .other n _ t o h1 h2 hn hne hf hm rfl
          · exact .emptied n _ t o h1 h2 hn hne hf hm rfl
          · exact .added n _ t o h1 h2 hn hne hf hm rfl
      · rw [if_pos hc]
        refine .badMode n _ h1 h2 hn hne hab hm ?_
        rintro c' t' ⟨⟩
        exact hc
  have rew : f.closed = false → Spec.Reopened f mode cwd f.rewind cwd := by
    intro h1
    unfold FileO.rewind
    split
    · exact .rewound h1 (by assumption)
    · exact .missing h1 (by assumption)
    · exact .unsupported h1 (by assumption)
    · exact .fails h1 (by assumption)
  unfold FileO.reopen
  split
  · cases h1 : f.closed
    · exact rew h1
    · exact .memory h1 (by assumption)
  · rename_i hm
    have hm : f.cls ≠ .memory := fun e => hm e
    cases h1 : f.closed
    · exact rew h1
    · rw [if_neg (by simp)]
      split
      · rename_i hn
        obtain ⟨cls, nm, size, md, file, cl⟩ := f
        obtain ⟨n, rfl⟩ : ∃ n, nm = some n := by
          cases nm with
          | none => exact absurd rfl hn.1
          | some n => exact ⟨n, rfl⟩
        simp only [Option.getD_some] at hn ⊢
        cases mode with
        | none =>
          simp only [Option.getD_none, ne_eq, not_true_eq_false, if_false]
          cases md with
          | none => exact .noMode n h1 hm rfl hn.1 hn.2 (.inl rfl) rfl
          | some m => exact key h1 hm n rfl hn.1 hn.2 m (.inr ⟨.inl rfl, rfl⟩) _ rfl
        | some m' =>
          by_cases hz : m' = []
          · subst hz
            simp only [Option.getD_some, ne_eq, not_true_eq_false, if_false]
            cases md with
            | none => exact .noMode n h1 hm rfl hn.1 hn.2 (.inr rfl) rfl
            | some m => exact key h1 hm n rfl hn.1 hn.2 m (.inr ⟨.inr rfl, rfl⟩) _ rfl
          · simp only [Option.getD_some, ne_eq, hz, not_false_eq_true, if_true]
            exact key h1 hm n rfl hn.1 hn.2 m' (.inl ⟨rfl, hz⟩) _ rfl
      · rename_i hn
        refine .unnamed h1 fun n e => ?_
        rw [e] at hn
        simp only [Option.getD_some, not_and, ne_eq, Classical.not_not] at hn
        by_cases hz : n = []
        · exact .inl hz
        · exact .inr (hn hz)

example : let cwd : Cwd := fun n => if n = b!"log" then .file b!"abc" else .absent
    ((temporaryUploaded b!"log" b!"x" 1).close.reopen (some b!"ab") cwd).1.toOption.map (·.file.pos) = some 3 ∧
    ((temporaryUploaded b!"log" b!"x" 1).close.reopen (some b!"x") cwd).1.toOption = none ∧
    ((temporaryUploaded b!"log" b!"x" 1).reopen (some b!"x") cwd).1.toOption.isSome = true := by decide +kernel

example : let cwd : Cwd := fun n => if n = b!"setup.py" then .file b!"import os" else .absent
    ((temporaryUploaded b!"setup.py" b!"x" 1).close.reopen none cwd).2 b!"setup.py" = .file [] := by decide +kernel

/-! ### C90: truth and length -/

/-- **C90 is false of the code**: the truth value of an uploaded file is whether it has bytes, not whether it has a
name; an empty upload with a name is false, and asking a plain `File` is a `TypeError`. -/
theorem C90_refuted :
    (∀ name content : Bytes, name ≠ [] → content = [] →
      (temporaryUploaded name content content.length).truth = .ok false) ∧
    (∀ f : FileO, f.size = .method → f.truth = .error .typeError ∧ f.len = .error .typeError) := by
  refine ⟨fun name content _ h => by subst h; rfl, fun f h => ?_⟩
  simp [FileO.truth, FileO.len, h]

/-- **C90, the part that holds**: the length of an uploaded file is the number of its bytes, and it is true if it
has any.  Missing: empty files. -/
theorem C90_partial (f : FileO) (hs : f.size = .int f.file.content.length) :
    f.len = .ok f.file.content.length ∧ f.truth = .ok (f.file.content ≠ []) := by
  have h1 : f.len = .ok f.file.content.length := by
    simp only [FileO.len, hs]
    rw [if_neg (by omega)]
    simp
  refine ⟨h1, ?_⟩
  simp only [FileO.truth, h1, List.length_eq_zero_iff, ne_eq]

/-- **C90** in every case: the length is the size; a negative size is a `ValueError`, and `None` or a method instead of a
size a `TypeError`; asking for the truth value raises the same. -/
theorem C90_len (f : FileO) :
    (∀ n : Nat, f.size = .int n → f.len = .ok n ∧ f.truth = .ok (decide (n ≠ 0))) ∧
    (∀ n : Int, n < 0 → f.size = .int n → f.len = .error .valueError ∧ f.truth = .error .valueError) ∧
    (f.size = .none ∨ f.size = .method → f.len = .error .typeError ∧ f.truth = .error .typeError) := by
  refine ⟨fun n h => ?_, fun n hn h => ?_, ?_⟩
  · have : f.len = .ok n := by simp [FileO.len, h]
    exact ⟨this, by simp [FileO.truth, this]⟩
  · have : f.len = .error .valueError := by simp [FileO.len, h, hn]
    exact ⟨this, by simp [FileO.truth, this]⟩
  · rintro (h | h) <;> simp [FileO.truth, FileO.len, h]

example : FileO.len { cls := .memory, size := .int (-3), file := { content := b!"abc" } } = .error .valueError := by rfl

/-- `SimpleUploadedFile` holds exactly its content, with the right size, in one chunk. -/
theorem C90_simple (name : Option Bytes) (content : Bytes) (n : Option Int) :
    (simpleUploaded name content).len = .ok content.length ∧
    ∃ g, (simpleUploaded name content).chunks n = .ok ([content], g) := by
  refine ⟨(C90_partial (simpleUploaded name content) rfl).1, ?_⟩
  refine ⟨{ simpleUploaded name content with file := (memoryChunks (simpleUploaded name content).file).2 }, ?_⟩
  unfold FileO.chunks
  simp only [simpleUploaded]
  rw [C64_memory]
  rfl

example : (temporaryUploaded b!"a" b!"bc" 2).truth.toOption = some true ∧
    (simpleUploaded (some b!"a") b!"").truth.toOption = some false := by decide +kernel

end Verif
