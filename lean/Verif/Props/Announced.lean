import Verif.Props.Kept
import Verif.Props.Conserved
/-!
# C142: how much the `MemoryFileUploadHandler` keeps in memory
-/

namespace Verif
open Spec

/-- The bytes of the files of a dictionary that are kept in memory. -/
def inMemoryBytes (heap : Heap) (d : MVD Uploaded) : Nat :=
  (((items d).filter fun p => p.2.inMemory).map fun p => heap.len p.2.ref).sum

theorem sum_filter_le {α : Type} (q : α → Bool) (f : α → Nat) (l : List α) :
    ((l.filter q).map f).sum ≤ (l.map f).sum := by
  induction l with
  | nil => simp
  | cons a l ih =>
    rw [List.filter_cons]
    split <;> simp <;> omega

/-- **C142, the part that holds**: if the body is not longer than announced, the files that a
`MemoryFileUploadHandler` followed by a `TemporaryFileUploadHandler` keeps in memory have together at most
`FILE_UPLOAD_MAX_MEMORY_SIZE` bytes, or there are none: whatever the body, and however it comes.  Missing: a body that is longer than announced
(`C142_refuted`). -/
theorem C142_partial {ρ : Type} [Producer ρ] {L : Lawful ρ} (C : Codecs) (S : Settings) (os : Os)
    (hos : ∀ x, os.tempFile x ≠ .error .stopFutureHandlers) (fuel64 : Nat) (m : MultiPart) (hc : 1 ≤ m.chunkSize)
    (input s' : LazyStream ρ) (hi : SOK L input) (honest : (L.sc input).length ≤ m.contentLength) (heap : Heap) (w' : BWorld)
    {post : MVD PostItem} {files : MVD Uploaded}
    (h : m.parse C S (builtinOps ρ os 2) fuel64 input ⟨[.memory {}, .temp {}], heap⟩ = (.ok (post, files), s', w')) :
    (inMemoryBytes w'.heap files : Int) ≤ S.fileMaxMemory ∨ ∀ p ∈ items files, p.2.inMemory = false := by
  have h1 := C112_memory C S os fuel64 m input s' {} heap w' h
  have h2 := C119_parse (L := L) (hs := [.memory {}, .temp {}]) hos (by simp [NewHandler]) S false m hc input hi
    (by exact h)
  by_cases hl : (m.contentLength : Int) ≤ S.fileMaxMemory
  · refine .inl ?_
    have h3 : inMemoryBytes w'.heap files ≤ fileBytes w'.heap (Verif.filesOf files) := by
      unfold inMemoryBytes fileBytes Verif.filesOf
      rw [List.map_map]
      exact sum_filter_le _ _ _
    omega
  · refine .inr fun p hp => ?_
    have := h1 p hp
    cases hq : p.2.inMemory with
    | false => rfl
    | true => exact absurd (this.1 hq) hl

theorem bget?_none {β : Type} {d : Dict Bytes β} {k : Bytes} (h : d.get? k = none) : k ∉ d.keys := by
  induction d with
  | nil => simp [Dict.keys]
  | cons p d ih =>
    obtain ⟨a, b⟩ := p
    unfold Dict.get? at h
    split at h
    · cases h
    · rename_i hne
      have := ih h
      simp only [Dict.keys, List.map_cons, List.mem_cons, not_or] at this ⊢
      exact ⟨fun e => hne e.symm, this⟩

/-- A form with one file of `N` bytes. -/
def bigFile (N : Nat) : List FormItem := [.file b!"f" b!"n" b!"text/plain" (List.replicate N 120)]

theorem bigFile_ok (N : Nat) (h : 1 ≤ N) : ∀ it ∈ bigFile N, it.Ok b!"~" := by
  intro it hit
  simp only [bigFile, List.mem_singleton] at hit
  subst hit
  refine ⟨?_, ?_, ?_, ?_, by decide +kernel,
    separable_of_no_semicolon (by decide +kernel) (by decide +kernel), ?_, by decide +kernel, by decide +kernel,
    by decide +kernel, by decide +kernel, by decide +kernel⟩
  · intro hx
    have h1 : (126 : UInt8) ∈ FormItem.text (.file b!"f" b!"n" b!"text/plain" (List.replicate N 120)) :=
      hx.subset (by decide)
    have h2 : (126 : UInt8) ∉ FormItem.head (.file b!"f" b!"n" b!"text/plain" []) ++ b!"\r\n\r\n" := by decide +kernel
    rw [show FormItem.text (.file b!"f" b!"n" b!"text/plain" (List.replicate N 120)) =
        (FormItem.head (.file b!"f" b!"n" b!"text/plain" []) ++ b!"\r\n\r\n") ++ List.replicate N 120 from rfl,
      List.mem_append] at h1
    rcases h1 with h1 | h1
    · exact h2 h1
    · exact absurd (List.eq_of_mem_replicate h1) (by decide)
  · show (FormItem.head (.file b!"f" b!"n" b!"text/plain" [])).length + 4 ≤ 1024
    decide +kernel
  · show Py.strip b!"f" = b!"f"
    decide +kernel
  · show (13 : UInt8) ∉ b!"f"
    decide
  · intro hn
    have := congrArg List.length hn
    simp at this
    omega

/-- **C142 is false**: the `MemoryFileUploadHandler` looks at the announced length of the request only, and
nothing holds the body to it.  Whatever the limit, a client that announces one byte and sends `N` gets a file
of `N` bytes kept in memory; whatever the chunk size and the cutting of the body. -/
theorem C142_refuted (M : Int) (hM : 1 ≤ M) (N : Nat) (hN : 1 ≤ N) (k : Nat) (hk : 1 ≤ k) (cs : List Bytes)
    (hb : cs.flatten = renderForm b!"~" (bigFile N)) :
    ∃ post files s' w', MultiPart.parse latinCodecs { fileMaxMemory := M } (builtinOps Source goodOs 2) 0 ⟨b!"~", k, 1⟩ (LazyStream.mk' ⟨cs⟩)
        ⟨[.memory {}, .temp {}], []⟩ = (.ok (post, files), s', w') ∧ inMemoryBytes w'.heap files = N := by
  obtain ⟨post, files, s', w', h1, -, fs, h2, -, hnd, h3⟩ :=
    C19_files (L := Source.lawful) latinCodecs { fileMaxMemory := M } goodOs (fun _ => rfl) 0 ⟨b!"~", k, 1⟩ hk (by simp) (by show (13 : UInt8) ∉ b!"~"; decide)
      (pre := none) (epi := b!"\r\n") ⟨by simp, by simp, by simp, by show ¬ b!"--~" <:+: b!"--\r\n"; decide +kernel, by decide +kernel⟩ rfl (fun n hn => by
        have : Py.isAscii n = true := by simpa [Py.isAscii] using hn
        simp [latinCodecs, this]) (bigFile N) (bigFile_ok N hN) ⟨by intro n h; simp at h; subst h; simp [bigFile, fieldsOf],
          by intro n h; simp at h; subst h; simp [bigFile, formSize, fieldsOf]⟩
      [.memory {}, .temp {}] [] ⟨⟨.temp {}, by simp, trivial⟩, by intro h hh _; simp at hh⟩
      (LazyStream.mk' ⟨cs⟩) (SOK.fresh cs) (by rw [sc_fresh]; exact hb)
  refine ⟨post, files, s', w', h1, ?_⟩
  have hmem := C112_memory latinCodecs { fileMaxMemory := M } goodOs 0 _ _ _ _ _ _ h1
  have hfo : Spec.filesOf (bigFile N) = [(b!"f", b!"n", List.replicate N 120)] := rfl
  rw [hfo] at h2 h3
  cases h2 with
  | cons hf ht =>
    rename_i f fs
    cases ht
    have key : files = [(b!"f", [f])] := by
      have hall : ∀ k ∈ Dict.keys files, k = b!"f" := by
        intro k hk
        by_contra hne
        have := h3 k
        rw [if_pos (by simp; exact fun h => hne h.symm)] at this
        exact absurd hk (bget?_none this)
      have hg := h3 b!"f"
      simp only [List.zip_cons_cons, List.zip_nil_left, decide_true, List.filter_cons_of_pos, List.filter_nil,
        List.map_cons, List.map_nil] at hg
      cases files with
      | nil => simp [Dict.get?] at hg
      | cons q files =>
        obtain ⟨k, v⟩ := q
        cases files with
        | nil =>
          have : k = b!"f" := hall k (by simp [Dict.keys])
          subst this
          simpa [Dict.get?] using hg
        | cons q' files =>
          have e1 : k = b!"f" := hall k (by simp [Dict.keys])
          have e2 : q'.1 = b!"f" := hall q'.1 (by simp [Dict.keys])
          simp [Dict.keys, e1, e2] at hnd
    subst key
    have hin : f.inMemory = true := (hmem (b!"f", f) (by simp [items])).2 hM
    simp [inMemoryBytes, items, hin, Heap.len, hf.data]

/-- A body of that kind exists, whatever the limit. -/
example : ∃ post files s' w', MultiPart.parse latinCodecs { fileMaxMemory := 2 ^ 20 } (builtinOps Source goodOs 2) 0
    ⟨b!"~", 64, 1⟩ (LazyStream.mk' ⟨[renderForm b!"~" (bigFile (2 ^ 40))]⟩) ⟨[.memory {}, .temp {}], []⟩ =
      (.ok (post, files), s', w') ∧ inMemoryBytes w'.heap files = 2 ^ 40 :=
  C142_refuted _ (by decide) _ (by decide) _ (by decide) _ (by simp)

/-- An honest client. -/
example (C : Codecs) (cs : List Bytes) (k : Nat) (hk : 1 ≤ k) (post : MVD PostItem) (files : MVD Uploaded)
    (s' : LazyStream Source) (w' : BWorld)
    (h : MultiPart.parse C { fileMaxMemory := 100 } (builtinOps Source goodOs 2) 0 ⟨b!"~", k, cs.flatten.length⟩
      (LazyStream.mk' ⟨cs⟩) ⟨[.memory {}, .temp {}], []⟩ = (.ok (post, files), s', w')) :
    (inMemoryBytes w'.heap files : Int) ≤ 100 ∨ ∀ p ∈ items files, p.2.inMemory = false :=
  C142_partial (L := Source.lawful) C { fileMaxMemory := 100 } goodOs (by simp [goodOs]) 0 _ hk _ _ (SOK.fresh cs)
    (by rw [sc_fresh]) _ _ h

end Verif
