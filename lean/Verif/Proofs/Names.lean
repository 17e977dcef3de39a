import Verif.Proofs.Keeps
import Verif.Model.Handlers
/-! Names of uploaded files (C31). -/

namespace Verif
open Spec

theorem rfindChar_none {c : UInt8} : ∀ {s : Bytes}, Py.rfindChar c s = none → c ∉ s := by
  intro s
  induction s with
  | nil => intro _; simp
  | cons x t ih =>
    intro h
    simp only [Py.rfindChar] at h
    split at h
    · simp at h
    · rename_i ht
      split at h
      · simp at h
      · rename_i hx
        simp only [List.mem_cons, not_or]
        exact ⟨fun h => hx h.symm, ih ht⟩

theorem rfindChar_drop {c : UInt8} : ∀ {s : Bytes} {i : Nat}, Py.rfindChar c s = some i →
    c ∉ s.drop (i + 1) ∧ s[i]? = some c := by
  intro s
  induction s with
  | nil => intro i h; simp [Py.rfindChar] at h
  | cons x t ih =>
    intro i h
    simp only [Py.rfindChar] at h
    split at h
    · rename_i j hj
      simp only [Option.some.injEq] at h
      subst h
      exact ⟨by simpa using (ih hj).1, by simpa using (ih hj).2⟩
    · rename_i ht
      split at h
      · rename_i hx
        simp only [Option.some.injEq] at h
        subst h; subst hx
        exact ⟨by simpa using rfindChar_none ht, rfl⟩
      · simp at h

theorem basename_no_slash (p : Bytes) : (47 : UInt8) ∉ Py.basename p := by
  unfold Py.basename
  split
  · rename_i h; exact rfindChar_none h
  · rename_i i h; exact (rfindChar_drop h).1

theorem basename_subset (p : Bytes) : ∀ c ∈ Py.basename p, c ∈ p := by
  unfold Py.basename
  split
  · exact fun c h => h
  · exact fun c h => List.mem_of_mem_drop h

theorem splitext_subset (p : Bytes) :
    (∀ c ∈ (Py.splitext p).1, c ∈ p) ∧ (∀ c ∈ (Py.splitext p).2, c ∈ p) := by
  unfold Py.splitext
  split
  · exact ⟨fun c h => h, by simp⟩
  · rename_i dot _
    have key : ∀ (c : Prop) [Decidable c],
        (∀ x ∈ (if c then (p.take dot, p.drop dot) else (p, [])).1, x ∈ p) ∧
        (∀ x ∈ (if c then (p.take dot, p.drop dot) else (p, [])).2, x ∈ p) := by
      intro c _
      split
      · exact ⟨fun c h => List.mem_of_mem_take h, fun c h => List.mem_of_mem_drop h⟩
      · exact ⟨fun c h => h, by simp⟩
    exact key _

theorem setName_subset (p : Bytes) : ∀ c ∈ setName p, c ∈ Py.basename p := by
  intro c h
  unfold setName at h
  simp only at h
  split at h
  · rcases List.mem_append.1 h with h | h
    · exact (splitext_subset _).1 c (List.mem_of_mem_take h)
    · exact (splitext_subset _).2 c (List.mem_of_mem_take h)
  · exact h

theorem setName_length (p : Bytes) : (setName p).length ≤ 255 := by
  unfold setName
  simp only
  split
  · simp only [List.length_append, List.length_take]
    omega
  · omega

theorem strip_subset (s : Bytes) : ∀ c ∈ Py.strip s, c ∈ s := by
  intro c h
  unfold Py.strip Py.stripBy at h
  rw [List.mem_reverse] at h
  have h1 := (List.dropWhile_suffix _).subset h
  rw [List.mem_reverse] at h1
  exact (List.dropWhile_suffix _).subset h1

theorem ieSanitize_no_backslash (n : Bytes) : (92 : UInt8) ∉ ieSanitize n := by
  unfold ieSanitize
  split
  · rename_i h; exact fun hc => rfindChar_none h (strip_subset _ _ hc)
  · rename_i i h; exact fun hc => (rfindChar_drop h).1 (strip_subset _ _ hc)

/-- What is claimed of names. -/
def PlainName (n : Bytes) : Prop := 47 ∉ n ∧ 92 ∉ n ∧ n.length ≤ 255

theorem setName_plain {n : Bytes} (h : 92 ∉ n) : PlainName (setName n) :=
  ⟨fun hc => basename_no_slash n (setName_subset n _ hc),
   fun hc => h (basename_subset n _ (setName_subset n _ hc)), setName_length n⟩

/-- The handler remembers only names without backslash. -/
def MemoryH.Plain (h : MemoryH) : Prop := ∀ a, h.args = some a → 92 ∉ a.fileName
def TempH.Plain (h : TempH) : Prop := ∀ f, h.file = some f → PlainName f.name
def Builtin.Plain : Builtin → Prop
  | .memory h => h.Plain
  | .temp h => h.Plain
  | .conv h => h.memory.Plain ∧ h.temp.Plain

/-- All handlers remember only names without backslash. -/
def BWorld.Plain (w : BWorld) : Prop := ∀ b ∈ w.hs, b.Plain

theorem BWorld.on_plain {α : Type} {w : BWorld} {i : Nat} {f : Builtin → Heap → Res (Builtin × Heap) α}
    (h : w.Plain) (hf : ∀ b heap, b.Plain → (f b heap).2.1.Plain) : (w.on i f).2.Plain := by
  unfold BWorld.on
  split
  · exact h
  · rename_i b hb
    have hb' : b ∈ w.hs := List.mem_of_getElem? hb
    have := hf b w.heap (h b hb')
    intro b' hm
    simp only at hm
    rcases List.mem_or_eq_of_mem_set hm with hm | rfl
    · exact h b' hm
    · exact this

theorem MemoryH.newFile_plain {h : MemoryH} {a : NewFileArgs} {heap} (ha : 92 ∉ a.fileName) :
    (h.newFile a heap).2.1.Plain := by
  have : ∀ act file, MemoryH.Plain { args := some a, activated := act, file := file } := by
    intro act file a' h'; simp at h'; subst h'; exact ha
  unfold MemoryH.newFile
  simp only
  split <;> exact this _ _

theorem TempH.newFile_plain {os : Os} {h : TempH} {a : NewFileArgs} {heap} (hp : h.Plain)
    (ha : 92 ∉ a.fileName) : (h.newFile os a heap).2.1.Plain := by
  unfold TempH.newFile
  simp only
  split
  · exact hp
  · split
    · exact hp
    · intro f hf
      simp at hf; subst hf
      exact setName_plain ha

theorem TempH.complete_plain {h : TempH} {n heap} (hp : h.Plain) : (h.fileComplete n heap).2.1.Plain := by
  unfold TempH.fileComplete
  split
  · exact hp
  · rename_i f hf
    split
    · exact hp
    · intro f' hf'
      simp at hf'; subst hf'
      exact hp f hf

theorem TempH.result_plain {h : TempH} {n heap f} (hp : h.Plain)
    (hf : (h.fileComplete n heap).1 = .ok (some f)) : PlainName f.name := by
  unfold TempH.fileComplete at hf
  split at hf
  · simp at hf
  · rename_i f' hf'
    split at hf
    · simp at hf
    · simp at hf; subst hf
      exact hp f' hf'

theorem MemoryH.result_plain {h : MemoryH} {n heap f} (hp : h.Plain)
    (hf : (h.fileComplete n heap).1 = .ok (some f)) : PlainName f.name ∧ 92 ∉ f.args.fileName := by
  unfold MemoryH.fileComplete at hf
  split at hf
  · simp at hf
  · simp at hf
  · split at hf
    · rename_i r a _ ha
      split at hf
      · simp at hf
      · simp at hf; subst hf
        exact ⟨setName_plain (hp a ha), hp a ha⟩
    · simp at hf

theorem ConvH.switch_plain {os : Os} {c : ConvH} {heap} (h : Builtin.Plain (.conv c)) :
    Builtin.Plain (.conv (c.switch os heap).2.1) := by
  unfold ConvH.switch
  have hr := fun f => MemoryH.result_plain (n := c.received) (heap := heap) (f := f) h.1
  generalize c.memory.fileComplete c.received heap = z at *
  rcases z with ⟨(e | (_ | f)), heap1⟩
  · exact h
  · exact h
  · simp only
    split
    · exact h
    · split
      · exact h
      · rename_i o _ content o' _
        have hn := TempH.newFile_plain (os := os) (h := { hasSettings := true })
          (a := { f.args with contentLength := some 0 }) (heap := heap1.set f.ref o')
          (by intro f hf; simp at hf) (hr f rfl).2
        generalize TempH.newFile os { hasSettings := true } { f.args with contentLength := some 0 }
          (heap1.set f.ref o') = z at *
        rcases z with ⟨(e | _), t, heap2⟩
        · exact h
        · simp only
          split
          · exact h
          · exact ⟨h.1, hn⟩

theorem builtin_plain (ρ : Type) (os : Os) (n : Nat) :
    (builtinOps ρ os n).Keeps BWorld.Plain (fun f => PlainName f.name) (fun a => 92 ∉ a.fileName) := by
  refine ⟨newFiles_of_newFile ?_, ?_, ?_, ?_, fun _ _ h => h, ?_⟩
  · intro i a w h ha
    refine BWorld.on_plain h ?_
    intro b heap hb
    cases b with
    | memory m => exact MemoryH.newFile_plain ha
    | temp t => exact TempH.newFile_plain hb ha
    | conv c =>
      simp only [Builtin.newFile, ConvH.newFile]
      split
      · exact ⟨hb.1, TempH.newFile_plain hb.2 ha⟩
      · exact ⟨MemoryH.newFile_plain ha, hb.2⟩
  · intro i d k w h
    refine BWorld.on_plain h ?_
    intro b heap hb
    cases b with
    | memory m => exact hb
    | temp t => exact hb
    | conv c =>
      simp only [Builtin.receive, ConvH.receive]
      split
      · exact hb
      · rename_i S _
        have hs : Builtin.Plain (.conv (if c.switched = false ∧ (c.received : Int) + d.length > S
            then c.switch os heap else (.ok (), c, heap) : Res (ConvH × Heap) Unit).2.1) := by
          split
          · exact ConvH.switch_plain hb
          · exact hb
        generalize (if c.switched = false ∧ (c.received : Int) + d.length > S
            then c.switch os heap else (.ok (), c, heap) : Res (ConvH × Heap) Unit) = z at *
        rcases z with ⟨(e | _), c2, heap2⟩
        · exact hs
        · simp only
          split
          · exact hs
          · exact hs
  · intro i k w h
    refine BWorld.on_plain h ?_
    intro b heap hb
    cases b with
    | memory m => exact hb
    | temp t => exact TempH.complete_plain hb
    | conv c =>
      simp only [Builtin.fileComplete, ConvH.fileComplete]
      split
      · exact ⟨hb.1, TempH.complete_plain hb.2⟩
      · exact hb
  · intro i k w f h hf
    simp only [builtinOps, BWorld.on] at hf
    split at hf
    · simp at hf
    · rename_i b hb
      have hb := h b (List.mem_of_getElem? hb)
      cases b with
      | memory m => exact (MemoryH.result_plain hb hf).1
      | temp t => exact TempH.result_plain hb hf
      | conv c =>
        simp only [Builtin.fileComplete, ConvH.fileComplete] at hf
        split at hf
        · exact TempH.result_plain hb.2 hf
        · exact (MemoryH.result_plain hb.1 hf).1
  · intro i w h
    exact BWorld.on_plain h (fun b heap hb => hb)

end Verif
