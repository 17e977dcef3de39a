import Verif.Props.Form
/-!
# `ConvenientFileUploadHandler` (C24)
-/

namespace Verif
open Spec

/-- Give a handler the chunks of a file. -/
def Builtin.receiveAll (os : Os) : List Bytes → Builtin → Heap → Res (Builtin × Heap) Unit
  | [], b, heap => (.ok (), b, heap)
  | c :: cs, b, heap =>
    match b.receive os c heap with
    | (.error e, b, heap) => (.error e, b, heap)
    | (.ok _, b, heap) => b.receiveAll os cs heap

/-- Announce a file and give its chunks; as in the parser, `StopFutureHandlers` only ends the round
of announcements. -/
def Builtin.begin (os : Os) (a : NewFileArgs) (cs : List Bytes) (b : Builtin) (heap : Heap) :
    Res (Builtin × Heap) Unit :=
  match b.newFile os a heap with
  | (.ok (), b, heap) => b.receiveAll os cs heap
  | (.error .stopFutureHandlers, b, heap) => b.receiveAll os cs heap
  | (.error e, b, heap) => (.error e, b, heap)

/-- A sequence of files, each announced, given in chunks and completed. -/
def Builtin.files (os : Os) : List (NewFileArgs × List Bytes) → Builtin → Heap →
    Res (Builtin × Heap) (List (Option Uploaded))
  | [], b, heap => (.ok [], b, heap)
  | (a, cs) :: fs, b, heap =>
    match b.begin os a cs heap with
    | (.error e, b, heap) => (.error e, b, heap)
    | (.ok (), b, heap) =>
      match b.fileComplete cs.flatten.length heap with
      | (.error e, b, heap) => (.error e, b, heap)
      | (.ok f, b, heap) =>
        match b.files os fs heap with
        | (.error e, b, heap) => (.error e, b, heap)
        | (.ok r, b, heap) => (.ok (f :: r), b, heap)

theorem forall₂_mono {α β : Type} {R Q : α → β → Prop} (h : ∀ a b, R a b → Q a b) {l : List α} {l' : List β}
    (hl : List.Forall₂ R l l') : List.Forall₂ Q l l' := by
  induction hl with
  | nil => exact .nil
  | cons h1 _ ih => exact .cons (h _ _ h1) ih

/-- Cells that exist stay as they are. -/
def Frame (heap heap' : Heap) : Prop := ∀ (i : Nat) o, heap[i]? = some o → heap'[i]? = some o

theorem Frame.trans {a b c : Heap} (h1 : Frame a b) (h2 : Frame b c) : Frame a c :=
  fun i o h => h2 i o (h1 i o h)

section
variable {os : Os} (hos : ∀ e, os.tempFile e = .ok ())
include hos

theorem Builtin.receiveAll_open : ∀ (cs : List Bytes) (b : Builtin) (heap : Heap) (n : Bytes) (r : Nat) (d : Bytes),
    b.Accepts → b.Open n r → heap[r]? = some ⟨d, d.length, false⟩ →
    ∃ b' heap' r', b.receiveAll os cs heap = (.ok (), b', heap') ∧ b'.Accepts ∧ b'.Open n r' ∧
      heap'[r']? = some ⟨d ++ cs.flatten, (d ++ cs.flatten).length, false⟩ ∧
      (∀ k ≤ r, Frame (heap.take k) (heap'.take k)) ∧ r ≤ r' := by
  intro cs
  induction cs with
  | nil =>
    intro b heap n r d h1 h2 h3
    exact ⟨b, heap, r, rfl, h1, h2, by simpa using h3, fun k _ i o h => h, le_refl _⟩
  | cons c cs ih =>
    intro b heap n r d h1 h2 h3
    obtain ⟨b1, heap1, r1, a1, a2, a3, a4, a5, a6⟩ := b.receive_open hos c heap n r d h1 h2 h3
    obtain ⟨b2, heap2, r2, e1, e2, e3, e4, e5, e6⟩ := ih b1 heap1 n r1 (d ++ c) a2 a3 a4
    have hr := (List.getElem?_eq_some_iff.1 h3).1
    have hr1 : r ≤ r1 := by rcases a6 with rfl | h <;> omega
    refine ⟨b2, heap2, r2, ?_, e2, e3, by simpa using e4, ?_, by omega⟩
    · rw [Builtin.receiveAll, a1]; exact e1
    · intro k hk i o ho
      apply e5 k (by omega)
      rw [List.getElem?_take] at ho ⊢
      split at ho
      · rename_i hi
        rw [if_pos hi, a5 i (by omega) (by omega)]; exact ho
      · simp at ho

theorem Builtin.begin_open (a : NewFileArgs) (cs : List Bytes) (b : Builtin) (heap : Heap) (hb : b.Accepts) :
    ∃ b' heap' r', b.begin os a cs heap = (.ok (), b', heap') ∧ b'.Accepts ∧ b'.Open a.fileName r' ∧
      heap'[r']? = some ⟨cs.flatten, cs.flatten.length, false⟩ ∧ Frame heap heap' ∧ heap.length ≤ r' := by
  obtain ⟨r, b1, extra, a1, a2, a3, _, a5⟩ := b.newFile_init hos a heap hb.1
  obtain ⟨a8, rfl, a7⟩ := a5 hb.2
  obtain ⟨b2, heap2, r2, e1, e2, e3, e4, e5, e6⟩ := Builtin.receiveAll_open hos cs b1 (heap ++ [({} : FileObj)])
    a.fileName heap.length [] ⟨a2, a8⟩ a7 (by simp)
  refine ⟨b2, heap2, r2, ?_, e2, e3, by simpa using e4, ?_, e6⟩
  · rw [Builtin.begin, a1]
    rcases a3 with rfl | rfl <;> exact e1
  · intro i o ho
    have hi := (List.getElem?_eq_some_iff.1 ho).1
    have := e5 heap.length (le_refl _) i o (by simpa using ho)
    rw [List.getElem?_take, if_pos hi] at this
    exact this

/-- Content, for every built-in handler that takes files. -/
theorem Builtin.files_content : ∀ (files : List (NewFileArgs × List Bytes)) (b : Builtin) (heap : Heap), b.Accepts →
    ∃ fs b' heap', b.files os files heap = (.ok (fs.map some), b', heap') ∧ b'.Accepts ∧ Frame heap heap' ∧
      List.Forall₂ (fun p f => Holds heap' (setName p.1.fileName) p.2.flatten f) files fs := by
  intro files
  induction files with
  | nil => intro b heap hb; exact ⟨[], b, heap, rfl, hb, fun _ _ h => h, .nil⟩
  | cons p files ih =>
    obtain ⟨a, cs⟩ := p
    intro b heap hb
    obtain ⟨b1, heap1, r1, a1, a2, a3, a4, a5, a6⟩ := b.begin_open hos a cs heap hb
    obtain ⟨b2, f, c1, c2, c3, c4, c5⟩ := b1.complete_open cs.flatten.length heap1 a.fileName r1 _ a2 a3 a4
    obtain ⟨fs, b3, heap3, e1, e2, e3, e4⟩ := ih b2 (heap1.set r1 ⟨cs.flatten, 0, false⟩) c2
    have hr := (List.getElem?_eq_some_iff.1 a4).1
    refine ⟨f :: fs, b3, heap3, ?_, e2, ?_, .cons ⟨c4, c5, ?_⟩ e4⟩
    · rw [Builtin.files, a1]
      simp only [c1, e1, List.map_cons]
    · intro i o ho
      have hi := (List.getElem?_eq_some_iff.1 ho).1
      apply e3
      rw [List.getElem?_set_ne (by omega)]
      exact a5 i o ho
    · rw [c3]
      apply e3
      simp [hr]

end

/-! ### The memory bound -/

/-- The total content of the files kept in memory. -/
def memoryBytes (l : List ((NewFileArgs × List Bytes) × Option Uploaded)) : Nat :=
  (l.map (fun p => if p.2.any (·.inMemory) then p.1.2.flatten.length else 0)).sum

/-- `M` bytes are in memory files; while there was no switch they are what was received. -/
structure ConvH.Mem (S : Settings) (M : Nat) (h : ConvH) : Prop where
  settings : h.fileMax = some S.fileMaxMemory
  bound : (M : Int) ≤ S.fileMaxMemory
  received : h.switched = false → h.received = M
  temp : ∀ f, h.temp.file = some f → f.inMemory = false

theorem ConvH.newFile_mem {os : Os} {S : Settings} {M : Nat} {h : ConvH} (hm : h.Mem S M) (a : NewFileArgs) (heap : Heap) :
    (h.newFile os a heap).2.1.Mem S M ∧ (h.newFile os a heap).2.1.switched = h.switched := by
  unfold ConvH.newFile
  obtain ⟨rec, settings, sw, m, t⟩ := h
  cases sw with
  | true =>
    simp only [if_true]
    refine ⟨⟨hm.settings, hm.bound, by simp, ?_⟩, trivial⟩
    simp only [TempH.newFile]
    repeat' split
    all_goals first
      | exact hm.temp
      | (intro f hf; simp at hf; subst hf; rfl)
  | false =>
    simp only [Bool.false_eq_true, if_false]
    exact ⟨⟨hm.settings, hm.bound, hm.received, hm.temp⟩, trivial⟩

/-- The bytes of the current file count while it is in memory. -/
def ConvH.memOf (h : ConvH) (M n : Nat) : Nat := if h.switched then M else M + n

theorem ConvH.switch_mem {os : Os} {S : Settings} {h h' : ConvH} {heap heap' : Heap}
    (hs : h.fileMax = some S.fileMaxMemory) (e : h.switch os heap = (.ok (), h', heap')) :
    h'.fileMax = some S.fileMaxMemory ∧ h'.switched = true ∧ ∀ f, h'.temp.file = some f → f.inMemory = false := by
  unfold ConvH.switch at e
  split at e
  · simp at e
  · simp at e
  · split at e
    · simp at e
    · split at e
      · simp at e
      · dsimp only at e
        generalize h1 : TempH.newFile _ _ _ _ = z at e
        obtain ⟨(er | _), t, heap1⟩ := z
        · simp at e
        · simp only at e
          split at e
          · simp at e
          · simp only [Prod.mk.injEq, true_and] at e
            obtain ⟨rfl, rfl⟩ := e
            refine ⟨hs, rfl, ?_⟩
            simp only [TempH.newFile] at h1
            rw [if_neg (by simp)] at h1
            split at h1
            · simp at h1
            · simp only [Prod.mk.injEq] at h1
              obtain ⟨_, rfl, _⟩ := h1
              intro f hf
              simp at hf
              subst hf; rfl

theorem ConvH.receive_mem {os : Os} {S : Settings} {M n : Nat} {h h' : ConvH} {heap heap' : Heap} {c : Bytes}
    {r : Option Bytes} (hs : h.fileMax = some S.fileMaxMemory) (hb : (h.memOf M n : Int) ≤ S.fileMaxMemory)
    (hM : (M : Int) ≤ S.fileMaxMemory)
    (hr : h.switched = false → h.received = M + n) (ht : ∀ f, h.temp.file = some f → f.inMemory = false)
    (e : h.receive os c heap = (.ok r, h', heap')) :
    h'.fileMax = some S.fileMaxMemory ∧ (h'.memOf M (n + c.length) : Int) ≤ S.fileMaxMemory ∧
      (h'.switched = false → h'.received = M + (n + c.length)) ∧
      (∀ f, h'.temp.file = some f → f.inMemory = false) ∧ (h.switched = true → h'.switched = true) := by
  unfold ConvH.receive at e
  rw [hs] at e
  simp only at e
  by_cases hsw : h.switched = true
  · rw [if_neg (by simp [hsw])] at e
    simp only [hsw, if_true] at e
    split at e
    · simp at e
    · simp only [Prod.mk.injEq] at e
      obtain ⟨_, rfl, _⟩ := e
      refine ⟨hs, ?_, by simp, ht, fun _ => rfl⟩
      simp only [ConvH.memOf, hsw, if_true]; exact hM
  · have hsw : h.switched = false := by simpa using hsw
    by_cases hgt : (h.received : Int) + c.length > S.fileMaxMemory
    · rw [if_pos ⟨hsw, hgt⟩] at e
      generalize hz : h.switch os heap = z at e
      obtain ⟨(er | _), h1, heap1⟩ := z
      · simp at e
      · obtain ⟨k1, k2, k3⟩ := ConvH.switch_mem hs hz
        simp only [k2, if_true] at e
        split at e
        · simp at e
        · simp only [Prod.mk.injEq] at e
          obtain ⟨_, rfl, _⟩ := e
          refine ⟨k1, ?_, by simp [k2], k3, by simp [hsw]⟩
          simp only [ConvH.memOf, k2, if_true]; exact hM
    · rw [if_neg (by intro h; exact hgt h.2)] at e
      simp only [hsw, Bool.false_eq_true, if_false] at e
      split at e
      · simp at e
      · simp only [Prod.mk.injEq] at e
        obtain ⟨_, rfl, _⟩ := e
        refine ⟨hs, ?_, ?_, ht, by simp [hsw]⟩
        · simp only [ConvH.memOf, hsw, Bool.false_eq_true, if_false]
          have := hr hsw
          omega
        · intro _; simp only; have := hr hsw; omega

theorem ConvH.receiveAll_mem {os : Os} {S : Settings} {M : Nat} : ∀ (cs : List Bytes) (n : Nat) (h : ConvH) (b' : Builtin)
    (heap heap' : Heap), h.fileMax = some S.fileMaxMemory → (h.memOf M n : Int) ≤ S.fileMaxMemory →
    (M : Int) ≤ S.fileMaxMemory → (h.switched = false → h.received = M + n) →
    (∀ f, h.temp.file = some f → f.inMemory = false) →
    Builtin.receiveAll os cs (.conv h) heap = (.ok (), b', heap') →
    ∃ h', b' = .conv h' ∧ h'.fileMax = some S.fileMaxMemory ∧ (h'.memOf M (n + cs.flatten.length) : Int) ≤ S.fileMaxMemory ∧
      (h'.switched = false → h'.received = M + (n + cs.flatten.length)) ∧
      (∀ f, h'.temp.file = some f → f.inMemory = false) := by
  intro cs
  induction cs with
  | nil =>
    intro n h b' heap heap' h1 h2 h3 h4 h5 e
    simp only [Builtin.receiveAll, Prod.mk.injEq] at e
    obtain ⟨_, rfl, _⟩ := e
    exact ⟨h, rfl, h1, by simpa using h2, by simpa using h4, h5⟩
  | cons c cs ih =>
    intro n h b' heap heap' h1 h2 h3 h4 h5 e
    simp only [Builtin.receiveAll, Builtin.receive] at e
    generalize hz : h.receive os c heap = z at e
    obtain ⟨(er | r), h1', heap1⟩ := z
    · simp at e
    · obtain ⟨k1, k2, k3, k4, _⟩ := ConvH.receive_mem h1 h2 h3 h4 h5 hz
      simp only at e
      obtain ⟨h2', i1, i2, i3, i4, i5⟩ := ih (n + c.length) h1' b' heap1 heap' k1 k2 h3 k3 k4 e
      refine ⟨h2', i1, i2, ?_, ?_, i5⟩
      · rw [List.flatten_cons, List.length_append, ← Nat.add_assoc]; exact i3
      · rw [List.flatten_cons, List.length_append, ← Nat.add_assoc n]; exact i4

theorem ConvH.begin_mem {os : Os} {S : Settings} {M : Nat} {h : ConvH} (hm : h.Mem S M) (a : NewFileArgs)
    (cs : List Bytes) {b' : Builtin} {heap heap' : Heap}
    (e : Builtin.begin os a cs (.conv h) heap = (.ok (), b', heap')) :
    ∃ h', b' = .conv h' ∧ h'.fileMax = some S.fileMaxMemory ∧ (h'.memOf M cs.flatten.length : Int) ≤ S.fileMaxMemory ∧
      (h'.switched = false → h'.received = M + cs.flatten.length) ∧
      (∀ f, h'.temp.file = some f → f.inMemory = false) := by
  obtain ⟨k1, k2⟩ := ConvH.newFile_mem (os := os) hm a heap
  simp only [Builtin.begin, Builtin.newFile] at e
  generalize h.newFile os a heap = z at *
  obtain ⟨r, h1, heap1⟩ := z
  simp only at k1 k2 e
  have e2 : Builtin.receiveAll os cs (.conv h1) heap1 = (.ok (), b', heap') := by
    split at e
    · rename_i hz; simp only [Prod.mk.injEq] at hz; obtain ⟨_, rfl, rfl⟩ := hz; exact e
    · rename_i hz; simp only [Prod.mk.injEq] at hz; obtain ⟨_, rfl, rfl⟩ := hz; exact e
    · simp at e
  have := ConvH.receiveAll_mem (M := M) cs 0 h1 b' heap1 heap' k1.settings (by
    have := k1.bound
    unfold ConvH.memOf
    split <;> simpa using this) k1.bound (by simpa using k1.received) k1.temp e2
  simpa using this

theorem ConvH.complete_mem {h h' : ConvH} {heap heap' : Heap} {size : Nat} {f : Option Uploaded}
    (ht : ∀ f, h.temp.file = some f → f.inMemory = false)
    (e : h.fileComplete size heap = (.ok f, h', heap')) :
    h'.fileMax = h.fileMax ∧ h'.switched = h.switched ∧ h'.received = h.received ∧
      (∀ f, h'.temp.file = some f → f.inMemory = false) ∧ (h.switched = true → f.any (·.inMemory) = false) := by
  unfold ConvH.fileComplete at e
  obtain ⟨rec, settings, sw, m, t⟩ := h
  cases sw with
  | true =>
    simp only [if_true] at e
    obtain ⟨targs, thasS, tfile⟩ := t
    cases tfile with
    | none => simp [TempH.fileComplete] at e
    | some u =>
      have hu := ht u rfl
      simp only [TempH.fileComplete] at e
      generalize heap.modify u.ref (·.rewind) = z at e
      obtain ⟨(er | _), heap1⟩ := z
      · simp at e
      · simp only [Prod.mk.injEq, Except.ok.injEq] at e
        obtain ⟨rfl, rfl, rfl⟩ := e
        refine ⟨rfl, rfl, rfl, ?_, fun _ => by simp [hu]⟩
        intro f hf
        simp at hf
        subst hf; exact hu
  | false =>
    simp only [Bool.false_eq_true, if_false, Prod.mk.injEq] at e
    obtain ⟨_, rfl, _⟩ := e
    exact ⟨rfl, rfl, rfl, ht, by simp⟩

theorem ConvH.files_mem {os : Os} {S : Settings} : ∀ (files : List (NewFileArgs × List Bytes)) (h : ConvH) (M : Nat)
    (b' : Builtin) (heap heap' : Heap) (fs : List (Option Uploaded)), h.Mem S M →
    Builtin.files os files (.conv h) heap = (.ok fs, b', heap') →
    ∃ h', b' = .conv h' ∧ ∃ M', h'.Mem S M' ∧ M + memoryBytes (files.zip fs) ≤ M' := by
  intro files
  induction files with
  | nil =>
    intro h M b' heap heap' fs hm e
    simp only [Builtin.files, Prod.mk.injEq, Except.ok.injEq] at e
    obtain ⟨rfl, rfl, rfl⟩ := e
    exact ⟨h, rfl, M, hm, by simp [memoryBytes]⟩
  | cons p files ih =>
    obtain ⟨a, cs⟩ := p
    intro h M b' heap heap' fs hm e
    simp only [Builtin.files] at e
    generalize hz : Builtin.begin os a cs (.conv h) heap = z at e
    obtain ⟨(er | _), b1, heap1⟩ := z
    · simp at e
    · obtain ⟨h1, rfl, k1, k2, k3, k4⟩ := ConvH.begin_mem hm a cs hz
      simp only [Builtin.fileComplete] at e
      generalize hy : h1.fileComplete cs.flatten.length heap1 = y at e
      obtain ⟨(er | f), h2, heap2⟩ := y
      · simp at e
      · obtain ⟨l1, l2, l3, l4, l5⟩ := ConvH.complete_mem k4 hy
        simp only at e
        generalize hx : Builtin.files os files (.conv h2) heap2 = x at e
        obtain ⟨(er | r), b3, heap3⟩ := x
        · simp at e
        · simp only [Prod.mk.injEq, Except.ok.injEq] at e
          obtain ⟨rfl, rfl, rfl⟩ := e
          obtain ⟨h3, rfl, M', i1, i2⟩ := ih h2 (h1.memOf M cs.flatten.length) b3 heap2 heap3 r
            ⟨l1.trans k1, k2, fun hs => by
              rw [l2] at hs
              rw [l3, k3 hs]; simp [ConvH.memOf, hs], l4⟩ hx
          refine ⟨h3, rfl, M', i1, ?_⟩
          simp only [memoryBytes, List.zip_cons_cons, List.map_cons, List.sum_cons] at i2 ⊢
          have : (if f.any (·.inMemory) = true then cs.flatten.length else 0) + M ≤ h1.memOf M cs.flatten.length := by
            unfold ConvH.memOf
            cases hs : h1.switched with
            | true => simp [l5 hs]
            | false =>
              simp only [Bool.false_eq_true, if_false]
              split <;> omega
          omega

/-- **C24.** Whatever files a fresh `ConvenientFileUploadHandler` is given, in whatever chunks,
every completed file has exactly the bytes of its chunks, before and after and across the switch
to a temporary file; and at every moment (`files` completed, one more file begun with the chunks
`cs`) the files it keeps in memory together hold at most the configured number of bytes. -/
theorem C24_convenient {os : Os} (hos : ∀ e, os.tempFile e = .ok ()) (S : Settings) (hS : 0 ≤ S.fileMaxMemory)
    (files : List (NewFileArgs × List Bytes)) (a : NewFileArgs) (cs : List Bytes) (heap : Heap) :
    ∃ fs h1 heap1 h2 heap2,
      Builtin.files os files (.conv (({} : ConvH).rawInput S)) heap = (.ok (fs.map some), .conv h1, heap1) ∧
      Builtin.begin os a cs (.conv h1) heap1 = (.ok (), .conv h2, heap2) ∧
      List.Forall₂ (fun p f => Holds heap2 (setName p.1.fileName) p.2.flatten f) files fs ∧
      ((memoryBytes (files.zip (fs.map some)) + if h2.switched then 0 else cs.flatten.length : Nat) : Int) ≤
        S.fileMaxMemory := by
  have hm : (({} : ConvH).rawInput S).Mem S 0 :=
    ⟨rfl, by simpa using hS, fun _ => rfl, by intro f hf; simp [ConvH.rawInput] at hf⟩
  have hacc : (Builtin.conv (({} : ConvH).rawInput S)).Accepts :=
    ⟨⟨rfl, by simp [ConvH.rawInput], by simp [ConvH.rawInput, MemoryH.rawInput, hS]⟩, fun h => h⟩
  obtain ⟨fs, b1, heap1, e1, e2, e3, e4⟩ := Builtin.files_content hos files _ heap hacc
  obtain ⟨h1, rfl, M, i1, i2⟩ := ConvH.files_mem files _ 0 b1 heap heap1 _ hm e1
  obtain ⟨b2, heap2, r, j1, j2, j3, j4, j5, j6⟩ := Builtin.begin_open hos a cs (.conv h1) heap1 e2
  obtain ⟨h2, rfl, k1, k2, k3, k4⟩ := ConvH.begin_mem i1 a cs j1
  refine ⟨fs, h1, heap1, h2, heap2, e1, j1, ?_, ?_⟩
  · refine forall₂_mono ?_ e4
    rintro p f ⟨q1, q2, q3⟩
    exact ⟨q1, q2, j5 _ _ q3⟩
  · have hb := i1.bound
    unfold ConvH.memOf at k2
    split at k2 <;> rename_i hsw <;> simp only [hsw, if_true, if_false, Bool.false_eq_true] <;> omega

/-- A switch in the middle of the second file: limit 5; 3 bytes in the first file, 2 + 2 in the
second. -/
def convRun : Res (Builtin × Heap) (List (Option Uploaded)) :=
  Builtin.files ⟨fun _ => .ok ()⟩
    [(⟨b!"f", b!"a", [], none, none, [], none⟩, [b!"xyz"]), (⟨b!"f", b!"b", [], none, none, [], none⟩, [b!"12", b!"34"])]
    (.conv (({} : ConvH).rawInput { fileMaxMemory := 5 })) []

example : (convRun.1.toOption.map (·.map (fun f => f.map (fun f => (f.inMemory, f.size))))) =
    some [some (true, 3), some (false, 4)] := by decide +kernel
example : convRun.2.2.map (·.data) = [b!"xyz", b!"12", b!"1234"] := by decide +kernel

end Verif
