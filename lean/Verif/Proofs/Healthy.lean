import Verif.Proofs.Phases
import Verif.Props.Independent
/-! The built-in handlers, called in order, fail only when the operating system does. -/

namespace Verif
open Spec

/-- There is an open file at this address. -/
def Heap.OpenAt (h : Heap) (r : Nat) : Prop := ∃ o, h[r]? = some o ∧ o.closed = false

/-- No file is closed or lost. -/
def Heap.Grows (h h' : Heap) : Prop := ∀ r, h.OpenAt r → h'.OpenAt r

theorem Heap.Grows.refl (h : Heap) : h.Grows h := fun _ a => a

theorem Heap.Grows.trans {a b c : Heap} (h1 : a.Grows b) (h2 : b.Grows c) : a.Grows c := fun r h => h2 r (h1 r h)

theorem Heap.grows_append (h : Heap) (o : FileObj) : h.Grows (h ++ [o]) := by
  rintro r ⟨x, h1, h2⟩
  refine ⟨x, ?_, h2⟩
  rw [List.getElem?_append_left (List.getElem?_eq_some_iff.1 h1).1]; exact h1

theorem Heap.open_append (h : Heap) : Heap.OpenAt (h ++ [({} : FileObj)]) h.length := ⟨{}, by simp, rfl⟩

theorem Heap.grows_set (h : Heap) (r : Nat) (o : FileObj) (ho : o.closed = false) : h.Grows (h.set r o) := by
  rintro x ⟨y, h1, h2⟩
  by_cases e : r = x
  · subst e
    exact ⟨o, by rw [List.getElem?_set_self (List.getElem?_eq_some_iff.1 h1).1], ho⟩
  · exact ⟨y, by rw [List.getElem?_set_ne e]; exact h1, h2⟩

theorem Heap.write_open {h : Heap} {r : Nat} (ho : h.OpenAt r) (d : Bytes) :
    ∃ h', h.modify r (·.write d) = (.ok (), h') ∧ h.Grows h' := by
  obtain ⟨o, h1, h2⟩ := ho
  refine ⟨h.set r { o with data := o.data.take o.pos ++ d ++ o.data.drop (o.pos + d.length), pos := o.pos + d.length },
    by simp [Heap.modify, h1, FileObj.write, h2], Heap.grows_set _ _ _ h2⟩

theorem Heap.rewind_open {h : Heap} {r : Nat} (ho : h.OpenAt r) :
    ∃ h', h.modify r (·.rewind) = (.ok (), h') ∧ h.Grows h' := by
  obtain ⟨o, h1, h2⟩ := ho
  exact ⟨h.set r { o with pos := 0 }, by simp [Heap.modify, h1, FileObj.rewind, h2], Heap.grows_set _ _ _ h2⟩

/-- The exceptions of the operating system. -/
def Os.Raises (os : Os) (e : Exc) : Prop := ∃ x, os.tempFile x = .error e

/-- A handler after `handle_raw_input`. -/
def Builtin.Told : Builtin → Prop
  | .memory m => m.activated ≠ none
  | .temp t => t.hasSettings = true
  | .conv c => c.fileMax ≠ none ∧ (c.switched = true → c.temp.hasSettings = true) ∧
      (c.switched = false → c.memory.activated = some true)

/-- A handler that lets the handlers after it see the files. -/
def Builtin.Passes : Builtin → Prop
  | .memory m => m.activated = some false
  | .temp _ => True
  | .conv _ => False

/-- The in-memory handler holds an open file. -/
def MemoryH.Holds (m : MemoryH) (heap : Heap) : Prop :=
  ∃ r a, m.file = some r ∧ m.args = some a ∧ heap.OpenAt r

/-- The temporary-file handler holds an open file. -/
def TempH.Holds (t : TempH) (heap : Heap) : Prop := ∃ f, t.file = some f ∧ heap.OpenAt f.ref

/-- A handler that holds the file it needs. -/
def Builtin.Holds (heap : Heap) : Builtin → Prop
  | .memory m => m.activated = some true → m.Holds heap
  | .temp t => t.Holds heap
  | .conv c => if c.switched then c.temp.Holds heap else c.memory.Holds heap

theorem MemoryH.Holds.mono {m : MemoryH} {h h' : Heap} (a : m.Holds h) (g : h.Grows h') : m.Holds h' := by
  obtain ⟨r, x, h1, h2, h3⟩ := a; exact ⟨r, x, h1, h2, g r h3⟩

theorem TempH.Holds.mono {m : TempH} {h h' : Heap} (a : m.Holds h) (g : h.Grows h') : m.Holds h' := by
  obtain ⟨r, h1, h3⟩ := a; exact ⟨r, h1, g _ h3⟩

theorem Builtin.Holds.mono {b : Builtin} {h h' : Heap} (a : b.Holds h) (g : h.Grows h') : b.Holds h' := by
  cases b with
  | memory m => exact fun x => (a x).mono g
  | temp t => exact TempH.Holds.mono a g
  | conv c =>
    simp only [Builtin.Holds] at a ⊢
    split
    · rename_i hs; rw [if_pos hs] at a; exact a.mono g
    · rename_i hs; rw [if_neg hs] at a; exact a.mono g

theorem MemoryH.newFile_healthy {m m' : MemoryH} {a : NewFileArgs} {heap heap' : Heap} {r}
    (ht : m.activated ≠ none) (h : m.newFile a heap = (r, m', heap')) :
    m'.activated = m.activated ∧ heap.Grows heap' ∧
    (m.activated = some true → r = .error .stopFutureHandlers ∧ m'.Holds heap') ∧
    (m.activated = some false → r = .ok ()) := by
  unfold MemoryH.newFile at h
  simp only at h
  split at h
  · rename_i e; exact absurd e ht
  · rename_i e
    simp only [Prod.mk.injEq] at h
    obtain ⟨rfl, rfl, rfl⟩ := h
    exact ⟨rfl, Heap.Grows.refl _, by simp [e], by simp⟩
  · rename_i e
    simp only [Prod.mk.injEq] at h
    obtain ⟨rfl, rfl, rfl⟩ := h
    exact ⟨rfl, Heap.grows_append _ _, fun _ => ⟨rfl, _, _, rfl, rfl, Heap.open_append _⟩, by simp [e]⟩

theorem TempH.newFile_healthy {os : Os} {m m' : TempH} {a : NewFileArgs} {heap heap' : Heap} {r}
    (ht : m.hasSettings = true) (h : m.newFile os a heap = (r, m', heap')) :
    m'.hasSettings = true ∧ heap.Grows heap' ∧
    ((r = .ok () ∧ m'.Holds heap') ∨ ∃ e, r = .error e ∧ os.Raises e) := by
  unfold TempH.newFile at h
  simp only [ht, Bool.true_eq_false, if_false] at h
  split at h
  · rename_i e he
    simp only [Prod.mk.injEq] at h
    obtain ⟨rfl, rfl, rfl⟩ := h
    exact ⟨rfl, Heap.Grows.refl _, .inr ⟨e, rfl, _, he⟩⟩
  · simp only [Prod.mk.injEq] at h
    obtain ⟨rfl, rfl, rfl⟩ := h
    exact ⟨rfl, Heap.grows_append _ _, .inl ⟨rfl, _, rfl, Heap.open_append _⟩⟩

theorem Builtin.newFile_healthy {os : Os} {b b' : Builtin} {a : NewFileArgs} {heap heap' : Heap} {r}
    (ht : b.Told) (h : b.newFile os a heap = (r, b', heap')) :
    b'.Told ∧ heap.Grows heap' ∧ (b.Passes → b'.Passes) ∧
    ((r = .ok () ∧ b'.Holds heap') ∨ (r = .error .stopFutureHandlers ∧ b'.Holds heap' ∧ ¬ b.Passes) ∨
      ∃ e, r = .error e ∧ os.Raises e) := by
  cases b with
  | memory m =>
    simp only [Builtin.newFile] at h
    rcases hm : m.newFile a heap with ⟨r1, m1, h1⟩
    obtain ⟨a1, a2, a3, a4⟩ := MemoryH.newFile_healthy ht hm
    rw [hm] at h
    simp only [Prod.mk.injEq] at h
    obtain ⟨rfl, rfl, rfl⟩ := h
    refine ⟨by simpa [Builtin.Told, a1] using ht, a2, by simp [Builtin.Passes, a1], ?_⟩
    rcases hv : m.activated with _ | (_ | _)
    · exact absurd hv ht
    · exact .inl ⟨a4 hv, by simp [Builtin.Holds, a1, hv]⟩
    · exact .inr (.inl ⟨(a3 hv).1, fun _ => (a3 hv).2, by simp [Builtin.Passes, hv]⟩)
  | temp t =>
    simp only [Builtin.newFile] at h
    rcases hm : t.newFile os a heap with ⟨r1, m1, h1⟩
    obtain ⟨a1, a2, a3⟩ := TempH.newFile_healthy ht hm
    rw [hm] at h
    simp only [Prod.mk.injEq] at h
    obtain ⟨rfl, rfl, rfl⟩ := h
    refine ⟨a1, a2, by simp [Builtin.Passes], ?_⟩
    rcases a3 with a3 | a3
    · exact .inl a3
    · exact .inr (.inr a3)
  | conv c =>
    obtain ⟨t1, t2, t3⟩ := ht
    simp only [Builtin.newFile, ConvH.newFile] at h
    by_cases hs : c.switched = true
    · simp only [hs, if_true] at h
      rcases hm : c.temp.newFile os a heap with ⟨r1, m1, h1⟩
      obtain ⟨a1, a2, a3⟩ := TempH.newFile_healthy (t2 hs) hm
      rw [hm] at h
      simp only [Prod.mk.injEq] at h
      obtain ⟨rfl, rfl, rfl⟩ := h
      refine ⟨⟨t1, fun _ => a1, by simp [hs]⟩, a2, by simp [Builtin.Passes], ?_⟩
      rcases a3 with a3 | a3
      · exact .inl ⟨a3.1, by simpa [Builtin.Holds, hs] using a3.2⟩
      · exact .inr (.inr a3)
    · simp only [hs, if_false] at h
      rw [Bool.not_eq_true] at hs
      rcases hm : c.memory.newFile a heap with ⟨r1, m1, h1⟩
      obtain ⟨a1, a2, a3, a4⟩ := MemoryH.newFile_healthy (by rw [t3 hs]; simp) hm
      rw [hm] at h
      simp only [Bool.false_eq_true, if_false, Prod.mk.injEq] at h
      obtain ⟨rfl, rfl, rfl⟩ := h
      refine ⟨⟨t1, by simp [hs], fun _ => by simp [a1, t3 hs]⟩, a2, by simp [Builtin.Passes], ?_⟩
      obtain ⟨b1, b2⟩ := a3 (t3 hs)
      exact .inr (.inl ⟨b1, by simpa [Builtin.Holds, hs] using b2, by simp [Builtin.Passes]⟩)

theorem MemoryH.receive_healthy {m : MemoryH} {d : Bytes} {heap : Heap} (ha : m.activated = some true)
    (ht : m.Holds heap) : ∃ heap', m.receive d heap = (.ok none, heap') ∧ heap.Grows heap' := by
  obtain ⟨r, a, h1, h2, h3⟩ := ht
  obtain ⟨h', e1, e2⟩ := Heap.write_open h3 d
  exact ⟨h', by simp [MemoryH.receive, ha, h1, e1], e2⟩

theorem TempH.receive_healthy {m : TempH} {d : Bytes} {heap : Heap}
    (ht : m.Holds heap) : ∃ heap', m.receive d heap = (.ok none, heap') ∧ heap.Grows heap' := by
  obtain ⟨r, h1, h3⟩ := ht
  obtain ⟨h', e1, e2⟩ := Heap.write_open h3 d
  exact ⟨h', by simp [TempH.receive, h1, e1], e2⟩

theorem MemoryH.fileComplete_healthy {m : MemoryH} {n : Nat} {heap : Heap} (ha : m.activated = some true)
    (ht : m.Holds heap) : ∃ heap' f, m.fileComplete n heap = (.ok (some f), heap') ∧ heap.Grows heap' ∧ heap'.OpenAt f.ref := by
  obtain ⟨r, a, h1, h2, h3⟩ := ht
  obtain ⟨h', e1, e2⟩ := Heap.rewind_open h3
  refine ⟨h', { ref := r, inMemory := true, name := setName a.fileName, size := n, args := a }, ?_, e2, e2 _ h3⟩
  simp only [MemoryH.fileComplete, ha, h1, h2, e1]

theorem TempH.fileComplete_healthy {m : TempH} {n : Nat} {heap : Heap} (ht : m.Holds heap) :
    ∃ heap' f m', m.fileComplete n heap = (.ok (some f), m', heap') ∧ heap.Grows heap' ∧ m'.Holds heap' ∧
      m'.hasSettings = m.hasSettings := by
  obtain ⟨r, h1, h3⟩ := ht
  obtain ⟨h', e1, e2⟩ := Heap.rewind_open h3
  refine ⟨h', { r with size := n }, { m with file := some { r with size := n } }, ?_, e2, ⟨_, rfl, e2 _ h3⟩, rfl⟩
  simp only [TempH.fileComplete, h1, e1]

theorem ConvH.switch_healthy {os : Os} {c : ConvH} {heap : Heap} (ha : c.memory.activated = some true)
    (ht : c.memory.Holds heap) {r c' heap'} (h : c.switch os heap = (r, c', heap')) :
    heap.Grows heap' ∧ ((r = .ok () ∧ c'.switched = true ∧ c'.temp.Holds heap' ∧ c'.temp.hasSettings = true ∧
      c'.fileMax = c.fileMax) ∨ ∃ e, r = .error e ∧ os.Raises e ∧ c' = c) := by
  obtain ⟨h1, f, e1, g1, o1⟩ := MemoryH.fileComplete_healthy (n := c.received) ha ht
  unfold ConvH.switch at h
  rw [e1] at h
  obtain ⟨⟨data, pos, closed⟩, o2, o3⟩ := o1
  simp only at o3
  subst o3
  simp only [o2, FileObj.readAll, Bool.false_eq_true, if_false] at h
  have g2 : h1.Grows (h1.set f.ref { data := data, pos := data.length }) := Heap.grows_set _ _ _ rfl
  generalize hn : TempH.newFile os _ _ _ = z at h
  obtain ⟨rn, tn, hn'⟩ := z
  obtain ⟨b1, b2, b3⟩ := TempH.newFile_healthy rfl hn
  rcases b3 with ⟨rfl, b3⟩ | ⟨e, rfl, b3⟩
  · obtain ⟨h3, c1, c2⟩ := TempH.receive_healthy (d := data.drop pos) b3
    simp only [c1, Prod.mk.injEq] at h
    obtain ⟨rfl, rfl, rfl⟩ := h
    exact ⟨((g1.trans g2).trans b2).trans c2, .inl ⟨rfl, rfl, b3.mono c2, b1, rfl⟩⟩
  · simp only [Prod.mk.injEq] at h
    obtain ⟨rfl, rfl, rfl⟩ := h
    exact ⟨(g1.trans g2).trans b2, .inr ⟨e, rfl, b3, rfl⟩⟩

theorem Builtin.receive_healthy {os : Os} {b b' : Builtin} {d : Bytes} {heap heap' : Heap} {r}
    (ht : b.Told) (hh : b.Holds heap) (h : b.receive os d heap = (r, b', heap')) :
    b'.Told ∧ heap.Grows heap' ∧ (b.Passes → b'.Passes) ∧
    ((∃ x, r = .ok x ∧ b'.Holds heap') ∨ ∃ e, r = .error e ∧ os.Raises e) := by
  cases b with
  | memory m =>
    simp only [Builtin.receive] at h
    rcases hv : m.activated with _ | (_ | _)
    · exact absurd hv ht
    · have : m.receive d heap = (.ok (some d), heap) := by simp [MemoryH.receive, hv]
      rw [this] at h
      simp only [Prod.mk.injEq] at h
      obtain ⟨rfl, rfl, rfl⟩ := h
      exact ⟨ht, Heap.Grows.refl _, id, .inl ⟨_, rfl, hh⟩⟩
    · obtain ⟨h1, e1, e2⟩ := MemoryH.receive_healthy (d := d) hv (hh hv)
      rw [e1] at h
      simp only [Prod.mk.injEq] at h
      obtain ⟨rfl, rfl, rfl⟩ := h
      exact ⟨ht, e2, id, .inl ⟨_, rfl, hh.mono e2⟩⟩
  | temp t =>
    simp only [Builtin.receive] at h
    obtain ⟨h1, e1, e2⟩ := TempH.receive_healthy (d := d) hh
    rw [e1] at h
    simp only [Prod.mk.injEq] at h
    obtain ⟨rfl, rfl, rfl⟩ := h
    exact ⟨ht, e2, id, .inl ⟨_, rfl, hh.mono e2⟩⟩
  | conv c =>
    obtain ⟨t1, t2, t3⟩ := ht
    obtain ⟨limit, hlim⟩ := Option.ne_none_iff_exists'.1 t1
    simp only [Builtin.receive, ConvH.receive, hlim] at h
    by_cases hs : c.switched = true
    · have hh' : c.temp.Holds heap := by simpa [Builtin.Holds, hs] using hh
      obtain ⟨h1, e1, e2⟩ := TempH.receive_healthy (d := d) hh'
      simp only [hs, Bool.true_eq_false, false_and, if_false, if_true, e1, Prod.mk.injEq] at h
      obtain ⟨rfl, rfl, rfl⟩ := h
      exact ⟨⟨by simp [hlim], fun _ => t2 hs, by simp [hs]⟩, e2, by simp [Builtin.Passes],
        .inl ⟨_, rfl, by simpa [Builtin.Holds, hs] using hh'.mono e2⟩⟩
    · rw [Bool.not_eq_true] at hs
      have hh' : c.memory.Holds heap := by simpa [Builtin.Holds, hs] using hh
      by_cases hl : (c.received : Int) + d.length > limit
      · simp only [hs, true_and, hl, if_true] at h
        rcases hsw : c.switch os heap with ⟨r1, c1, h1⟩
        obtain ⟨g1, hc⟩ := ConvH.switch_healthy (t3 hs) hh' hsw
        rw [hsw] at h
        rcases hc with ⟨rfl, b1, b2, b3, b4⟩ | ⟨e, rfl, hc, hc'⟩
        · obtain ⟨h2, e1, e2⟩ := TempH.receive_healthy (d := d) b2
          simp only [b1, if_true, e1, Prod.mk.injEq] at h
          obtain ⟨rfl, rfl, rfl⟩ := h
          exact ⟨⟨by simp [b4, hlim], fun _ => b3, by simp [b1]⟩, g1.trans e2, by simp [Builtin.Passes],
            .inl ⟨_, rfl, by simpa [Builtin.Holds, b1] using b2.mono e2⟩⟩
        · simp only [Prod.mk.injEq] at h
          obtain ⟨rfl, rfl, rfl⟩ := h
          subst hc'
          exact ⟨⟨t1, t2, t3⟩, g1, by simp [Builtin.Passes], .inr ⟨e, rfl, hc⟩⟩
      · obtain ⟨h1, e1, e2⟩ := MemoryH.receive_healthy (d := d) (t3 hs) hh'
        simp only [hs, true_and, hl, if_false, Bool.false_eq_true, e1, Prod.mk.injEq] at h
        obtain ⟨rfl, rfl, rfl⟩ := h
        exact ⟨⟨by simp [hlim], by simp [hs], fun _ => t3 hs⟩, e2, by simp [Builtin.Passes],
          .inl ⟨_, rfl, by simpa [Builtin.Holds, hs] using hh'.mono e2⟩⟩

theorem Builtin.fileComplete_healthy {b b' : Builtin} {n : Nat} {heap heap' : Heap} {r}
    (ht : b.Told) (hh : b.Holds heap) (h : b.fileComplete n heap = (r, b', heap')) :
    b'.Told ∧ heap.Grows heap' ∧ (b.Passes → b'.Passes) ∧ b'.Holds heap' ∧ ∃ x, r = .ok x := by
  cases b with
  | memory m =>
    simp only [Builtin.fileComplete] at h
    rcases hv : m.activated with _ | (_ | _)
    · exact absurd hv ht
    · have : m.fileComplete n heap = (.ok none, heap) := by simp [MemoryH.fileComplete, hv]
      rw [this] at h
      simp only [Prod.mk.injEq] at h
      obtain ⟨rfl, rfl, rfl⟩ := h
      exact ⟨ht, Heap.Grows.refl _, id, hh, _, rfl⟩
    · obtain ⟨h1, f, e1, e2, _⟩ := MemoryH.fileComplete_healthy (n := n) hv (hh hv)
      rw [e1] at h
      simp only [Prod.mk.injEq] at h
      obtain ⟨rfl, rfl, rfl⟩ := h
      exact ⟨ht, e2, id, hh.mono e2, _, rfl⟩
  | temp t =>
    simp only [Builtin.fileComplete] at h
    obtain ⟨h1, f, m', e1, e2, e3, e4⟩ := TempH.fileComplete_healthy (n := n) hh
    rw [e1] at h
    simp only [Prod.mk.injEq] at h
    obtain ⟨rfl, rfl, rfl⟩ := h
    exact ⟨by simp only [Builtin.Told] at ht ⊢; rw [e4]; exact ht, e2, by simp [Builtin.Passes], e3, _, rfl⟩
  | conv c =>
    obtain ⟨t1, t2, t3⟩ := ht
    simp only [Builtin.fileComplete, ConvH.fileComplete] at h
    by_cases hs : c.switched = true
    · have hh' : c.temp.Holds heap := by simpa [Builtin.Holds, hs] using hh
      obtain ⟨h1, f, m', e1, e2, e3, e4⟩ := TempH.fileComplete_healthy (n := n) hh'
      simp only [hs, if_true, e1, Prod.mk.injEq] at h
      obtain ⟨rfl, rfl, rfl⟩ := h
      exact ⟨⟨t1, fun _ => by simp [e4, t2 hs], by simp [hs]⟩, e2, by simp [Builtin.Passes],
        by simpa [Builtin.Holds, hs] using e3, _, rfl⟩
    · rw [Bool.not_eq_true] at hs
      have hh' : c.memory.Holds heap := by simpa [Builtin.Holds, hs] using hh
      obtain ⟨h1, f, e1, e2, _⟩ := MemoryH.fileComplete_healthy (n := n) (t3 hs) hh'
      simp only [hs, Bool.false_eq_true, if_false, e1, Prod.mk.injEq] at h
      obtain ⟨rfl, rfl, rfl⟩ := h
      exact ⟨⟨t1, t2, t3⟩, e2, by simp [Builtin.Passes],
        by simpa [Builtin.Holds, hs] using hh'.mono e2, _, rfl⟩

end Verif
