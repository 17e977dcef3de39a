import Verif.Proofs.Truthful
import Verif.Props.Conserved
import Verif.Props.Decoding
/-!
# Everything in a parsed form comes from a part of the body (C120, C121)
-/

namespace Verif
open Spec

namespace Spec

/-- The content of the file at an address. -/
def dataAt (h : Heap) (r : Nat) : Option Bytes := (h[r]?).map FileObj.data

/-- A file object says what the file was announced with.  A file that was moved to disk while it arrived has been
announced again, with a length of 0. -/
structure Says (a : NewFileArgs) (f : Uploaded) : Prop where
  name : f.name = setName a.fileName
  args : f.args = a ∨ f.args = { a with contentLength := some 0 }

end Spec

theorem dataAt_append (h : Heap) (o : FileObj) {x : Nat} (hx : x < h.length) : dataAt (h ++ [o]) x = dataAt h x := by
  simp [dataAt, List.getElem?_append_left hx]

theorem dataAt_set {h : Heap} {r : Nat} {o o' : FileObj} (ho : h[r]? = some o) (e : o'.data = o.data) (x : Nat) :
    dataAt (h.set r o') x = dataAt h x := by
  unfold dataAt
  by_cases hx : x = r
  · subst hx
    obtain ⟨hi, -⟩ := List.getElem?_eq_some_iff.1 ho
    simp [List.getElem?_set_self hi, ho, e]
  · rw [List.getElem?_set_ne (Ne.symm hx)]

theorem dataAt_set_ne {h : Heap} {r : Nat} {o' : FileObj} {x : Nat} (hx : x ≠ r) : dataAt (h.set r o') x = dataAt h x := by
  unfold dataAt
  rw [List.getElem?_set_ne (Ne.symm hx)]

theorem dataAt_rewind (h : Heap) (r x : Nat) : dataAt (h.modify r (·.rewind)).2 x = dataAt h x := by
  unfold Heap.modify
  split
  · rfl
  · rename_i o ho
    split
    · rfl
    · rename_i o' hr
      refine dataAt_set ho ?_ x
      unfold FileObj.rewind at hr
      simp only at hr
      split at hr
      · cases hr
      · cases hr; rfl

theorem dataAt_write (h : Heap) (r : Nat) (d : Bytes) {x : Nat} (hx : x ≠ r) : dataAt (h.modify r (·.write d)).2 x = dataAt h x := by
  unfold Heap.modify
  split
  · rfl
  · split
    · rfl
    · exact dataAt_set_ne hx

/-- Writing at the end of a file. -/
theorem modify_write {h h' : Heap} {r : Nat} {o : FileObj} {c d : Bytes} (ho : h[r]? = some o) (hd : o.data = d)
    (hp : o.pos = d.length) (h1 : h.modify r (·.write c) = (.ok (), h')) :
    ∃ o', h'[r]? = some o' ∧ o'.data = d ++ c ∧ o'.pos = (d ++ c).length := by
  obtain ⟨hi, -⟩ := List.getElem?_eq_some_iff.1 ho
  unfold Heap.modify at h1
  rw [ho] at h1
  unfold FileObj.write at h1
  simp only at h1
  split at h1
  · cases h1
  · rename_i o' ho'
    split at ho'
    · cases ho'
    · cases ho'
      cases h1
      refine ⟨_, List.getElem?_set_self hi, ?_, ?_⟩
      · simp [hd, hp]
      · simp [hp]

/-! ### The handlers -/

def MemoryH.HasFile (a : NewFileArgs) (d : Bytes) (heap : Heap) (m : MemoryH) : Prop :=
  m.activated = some true ∧ m.args = some a ∧
    ∃ r o, m.file = some r ∧ heap[r]? = some o ∧ o.data = d ∧ o.pos = d.length

def TempH.HasFile (a : NewFileArgs) (d : Bytes) (heap : Heap) (t : TempH) : Prop :=
  ∃ f o, t.file = some f ∧ Says a f ∧ heap[f.ref]? = some o ∧ o.data = d ∧ o.pos = d.length

/-- The handler has a file that was announced with `a` and has received `d`. -/
def Builtin.HasFile (a : NewFileArgs) (d : Bytes) (heap : Heap) : Builtin → Prop
  | .memory m => m.HasFile a d heap
  | .temp t => t.HasFile a d heap
  | .conv c => if c.switched = true then c.temp.HasFile a d heap else c.memory.HasFile a d heap

/-- The handler takes the data but has no file. -/
def Builtin.NoFile : Builtin → Prop
  | .conv c => c.switched = false ∧ c.memory.activated ≠ some true
  | _ => False

/-- The handler passes the data on. -/
def Builtin.Through : Builtin → Prop
  | .memory m => m.activated = some false
  | _ => False

theorem MemoryH.newFile_tells (a : NewFileArgs) (m : MemoryH) (heap : Heap) :
    (∀ x, x < heap.length → (m.newFile a heap).2.2[x]? = heap[x]?) ∧ (m.newFile a heap).2.1.activated = m.activated ∧
    ((m.newFile a heap).1 = .ok () → m.activated = some false) ∧
    ((m.newFile a heap).1 = .error .stopFutureHandlers → (m.newFile a heap).2.1.HasFile a [] (m.newFile a heap).2.2) := by
  unfold MemoryH.newFile
  simp only
  split
  · exact ⟨fun _ _ => rfl, rfl, by simp, by simp⟩
  · rename_i h
    exact ⟨fun _ _ => rfl, rfl, fun _ => h, by simp⟩
  · rename_i h
    refine ⟨fun x hx => List.getElem?_append_left hx, rfl, by simp, fun _ => ⟨h, rfl, heap.length, {}, rfl, by simp, rfl, rfl⟩⟩

theorem TempH.newFile_tells (os : Os) (a : NewFileArgs) (t : TempH) (heap : Heap) :
    (∀ x, x < heap.length → (t.newFile os a heap).2.2[x]? = heap[x]?) ∧
    ((t.newFile os a heap).1 = .ok () → (t.newFile os a heap).2.1.HasFile a [] (t.newFile os a heap).2.2) := by
  unfold TempH.newFile
  simp only
  split
  · exact ⟨fun _ _ => rfl, by simp⟩
  · split
    · exact ⟨fun _ _ => rfl, by simp⟩
    · exact ⟨fun x hx => List.getElem?_append_left hx, fun _ => ⟨_, {}, rfl, ⟨rfl, .inl rfl⟩, by simp, rfl, rfl⟩⟩

theorem newFile_tells (os : Os) (hos : ∀ x, os.tempFile x ≠ .error .stopFutureHandlers) (a : NewFileArgs) (b : Builtin) (heap : Heap) :
    (∀ x, x < heap.length → (b.newFile os a heap).2.2[x]? = heap[x]?) ∧
    ((b.newFile os a heap).1 = .ok () → (b.newFile os a heap).2.1.Through ∨
      (b.newFile os a heap).2.1.HasFile a [] (b.newFile os a heap).2.2 ∨ (b.newFile os a heap).2.1.NoFile) ∧
    ((b.newFile os a heap).1 = .error .stopFutureHandlers →
      (b.newFile os a heap).2.1.HasFile a [] (b.newFile os a heap).2.2) := by
  cases b with
  | memory m =>
    obtain ⟨h1, h2, h3, h4⟩ := m.newFile_tells a heap
    exact ⟨h1, fun h => .inl (h2.trans (h3 h)), h4⟩
  | temp t =>
    obtain ⟨h1, h2⟩ := t.newFile_tells os a heap
    refine ⟨h1, fun h => .inr (.inl (h2 h)), fun h => ?_⟩
    obtain ⟨-, -, -, h4⟩ := t.newFile_only os a heap
    obtain ⟨x, hx⟩ := h4 h
    exact absurd hx (hos x)
  | conv c =>
    simp only [Builtin.newFile, ConvH.newFile]
    by_cases hsw : c.switched = true
    · rw [if_pos hsw]
      obtain ⟨h1, h2⟩ := c.temp.newFile_tells os a heap
      refine ⟨h1, fun h => .inr (.inl ?_), fun h => ?_⟩
      · simp only [Builtin.HasFile, hsw, if_true]; exact h2 h
      · obtain ⟨-, -, -, h4⟩ := c.temp.newFile_only os a heap
        obtain ⟨x, hx⟩ := h4 h
        exact absurd hx (hos x)
    · rw [if_neg hsw]
      obtain ⟨h1, h2, h3, h4⟩ := c.memory.newFile_tells a heap
      refine ⟨h1, fun h => .inr (.inr ⟨by simpa using hsw, ?_⟩), fun h => ?_⟩
      · simp only; rw [h2, h3 h]; simp
      · simp only [Builtin.HasFile, if_neg hsw]; exact h4 h

theorem MemoryH.fileComplete_tells (a : NewFileArgs) (d : Bytes) (size : Nat) (m : MemoryH) (heap : Heap) :
    (∀ x, dataAt (m.fileComplete size heap).2 x = dataAt heap x) ∧
    (∀ f, (m.fileComplete size heap).1 = .ok (some f) → f.size = size ∧ m.activated = some true) ∧
    (m.HasFile a d heap → ((m.fileComplete size heap).1 ≠ .ok none ∧
      ∀ f, (m.fileComplete size heap).1 = .ok (some f) → f.args = a ∧ Says a f ∧ dataAt heap f.ref = some d)) := by
  unfold MemoryH.fileComplete
  cases ha : m.activated with
  | none => exact ⟨fun _ => rfl, by simp, fun h => by simp [MemoryH.HasFile, ha] at h⟩
  | some x =>
  cases x with
  | false => exact ⟨fun _ => rfl, by simp, fun h => by simp [MemoryH.HasFile, ha] at h⟩
  | true =>
  simp only
  cases hf : m.file with
  | none => exact ⟨fun _ => rfl, by simp, fun h => by simp⟩
  | some r =>
  cases hg : m.args with
  | none => exact ⟨fun _ => rfl, by simp, fun h => by simp⟩
  | some b =>
    simp only
    have := dataAt_rewind heap r
    generalize hz : heap.modify r (·.rewind) = z at *
    obtain ⟨x, heap'⟩ := z
    cases x with
    | error e => exact ⟨this, by simp, fun _ => by simp⟩
    | ok u =>
      refine ⟨this, ?_, ?_⟩
      · intro f h
        simp only [Except.ok.injEq, Option.some.injEq] at h
        subst h
        exact ⟨rfl, trivial⟩
      · rintro ⟨-, h2, r', o, h3, h4, h5, -⟩
        rw [hg, Option.some.injEq] at h2
        rw [hf, Option.some.injEq] at h3
        subst h2 h3
        refine ⟨by simp, ?_⟩
        intro f h
        simp only [Except.ok.injEq, Option.some.injEq] at h
        subst h
        exact ⟨rfl, ⟨rfl, .inl rfl⟩, by simp [dataAt, h4, h5]⟩

theorem TempH.fileComplete_tells (a : NewFileArgs) (d : Bytes) (size : Nat) (t : TempH) (heap : Heap) :
    (∀ x, dataAt (t.fileComplete size heap).2.2 x = dataAt heap x) ∧
    (∀ f, (t.fileComplete size heap).1 = .ok (some f) → f.size = size) ∧
    (t.HasFile a d heap → ((t.fileComplete size heap).1 ≠ .ok none ∧
      ∀ f, (t.fileComplete size heap).1 = .ok (some f) → Says a f ∧ dataAt heap f.ref = some d)) := by
  unfold TempH.fileComplete
  cases hf : t.file with
  | none => exact ⟨fun _ => rfl, by simp, fun h => by simp⟩
  | some g =>
    simp only
    have := dataAt_rewind heap g.ref
    generalize hz : heap.modify g.ref (·.rewind) = z at *
    obtain ⟨x, heap'⟩ := z
    cases x with
    | error e => exact ⟨this, by simp, fun _ => by simp⟩
    | ok u =>
      refine ⟨this, ?_, ?_⟩
      · intro f h
        simp only [Except.ok.injEq, Option.some.injEq] at h
        subst h
        rfl
      · rintro ⟨g', o, h3, h2, h4, h5, -⟩
        rw [hf, Option.some.injEq] at h3
        subst h3
        refine ⟨by simp, ?_⟩
        intro f h
        simp only [Except.ok.injEq, Option.some.injEq] at h
        subst h
        exact ⟨⟨h2.name, h2.args⟩, by simp [dataAt, h4, h5]⟩

theorem fileComplete_tells (a : NewFileArgs) (d : Bytes) (size : Nat) (b : Builtin) (heap : Heap) :
    (∀ x, dataAt (b.fileComplete size heap).2.2 x = dataAt heap x) ∧
    (∀ f, (b.fileComplete size heap).1 = .ok (some f) → f.size = size ∧ ¬ b.NoFile ∧ ¬ b.Through) ∧
    (b.HasFile a d heap → ∀ f, (b.fileComplete size heap).1 = .ok (some f) → Says a f ∧ dataAt heap f.ref = some d) := by
  cases b with
  | memory m =>
    obtain ⟨h1, h2, h3⟩ := m.fileComplete_tells a d size heap
    exact ⟨h1, fun f h => ⟨(h2 f h).1, fun h => h, fun h' => by
      have := (h2 f h).2
      rw [show m.activated = some false from h'] at this
      cases this⟩, fun h f hf => ((h3 h).2 f hf).2⟩
  | temp t =>
    obtain ⟨h1, h2, h3⟩ := t.fileComplete_tells a d size heap
    exact ⟨h1, fun f h => ⟨h2 f h, fun h => h, fun h => h⟩, fun h f hf => (h3 h).2 f hf⟩
  | conv c =>
    simp only [Builtin.fileComplete, ConvH.fileComplete]
    by_cases hsw : c.switched = true
    · rw [if_pos hsw]
      obtain ⟨h1, h2, h3⟩ := c.temp.fileComplete_tells a d size heap
      refine ⟨h1, fun f h => ⟨h2 f h, fun h => ?_, fun h => h⟩, fun h f hf => (h3 ?_).2 f hf⟩
      · have := h.1; rw [hsw] at this; cases this
      · simpa only [Builtin.HasFile, hsw, if_true] using h
    · rw [if_neg hsw]
      obtain ⟨h1, h2, h3⟩ := c.memory.fileComplete_tells a d size heap
      refine ⟨h1, fun f h => ⟨(h2 f h).1, fun h' => h'.2 (h2 f h).2, fun h => h⟩, fun h f hf => ((h3 ?_).2 f hf).2⟩
      simpa only [Builtin.HasFile, if_neg hsw] using h

theorem close_tells (b : Builtin) (heap : Heap) (x : Nat) : dataAt (b.close heap) x = dataAt heap x := by
  have key : ∀ r, dataAt (match heap[r]? with
      | none => heap
      | some o => heap.set r { o with closed := true }) x = dataAt heap x := by
    intro r
    split
    · rfl
    · rename_i o ho
      exact dataAt_set ho (by rfl) x
  cases b with
  | memory m => simp only [Builtin.close]; split <;> first | exact key _ | rfl
  | temp t => simp only [Builtin.close]; split <;> first | exact key _ | rfl
  | conv c => rfl

theorem MemoryH.receive_tells (a : NewFileArgs) (d c : Bytes) (m : MemoryH) (heap : Heap) :
    (∀ x, x ∉ m.cur → dataAt (m.receive c heap).2 x = dataAt heap x) ∧
    (m.HasFile a d heap → ∀ y, (m.receive c heap).1 = .ok y → y = none ∧ m.HasFile a (d ++ c) (m.receive c heap).2) := by
  unfold MemoryH.receive
  cases ha : m.activated with
  | none => exact ⟨fun _ _ => rfl, fun h => by simp⟩
  | some x =>
  cases x with
  | false => exact ⟨fun _ _ => rfl, fun h => by simp [MemoryH.HasFile, ha] at h⟩
  | true =>
  simp only
  cases hf : m.file with
  | none => exact ⟨fun _ _ => rfl, fun h => by simp⟩
  | some r =>
    simp only
    have hc : m.cur = [r] := by simp [MemoryH.cur, MemoryH.refs, ha, hf]
    have h1 : ∀ x, x ∉ m.cur → dataAt (heap.modify r (·.write c)).2 x = dataAt heap x := fun x hx =>
      dataAt_write heap r c (by simpa [hc] using hx)
    generalize hz : heap.modify r (·.write c) = z at *
    obtain ⟨y, heap'⟩ := z
    cases y with
    | error e => exact ⟨h1, fun h => by simp⟩
    | ok u =>
      refine ⟨h1, ?_⟩
      rintro ⟨_, h3, r', o, h4, h5, h6, h7⟩ y hy
      rw [hf, Option.some.injEq] at h4
      subst h4
      obtain ⟨o', p1, p2, p3⟩ := modify_write h5 h6 h7 hz
      simp only [Except.ok.injEq] at hy
      exact ⟨hy.symm, ha, h3, r, o', hf, p1, p2, p3⟩

theorem TempH.receive_tells (a : NewFileArgs) (d c : Bytes) (t : TempH) (heap : Heap) :
    (∀ x, x ∉ t.refs → dataAt (t.receive c heap).2 x = dataAt heap x) ∧
    (t.HasFile a d heap → ∀ y, (t.receive c heap).1 = .ok y → y = none ∧ t.HasFile a (d ++ c) (t.receive c heap).2) := by
  unfold TempH.receive
  cases hf : t.file with
  | none => exact ⟨fun _ _ => rfl, fun h => by simp⟩
  | some f =>
    simp only
    have hc : t.refs = [f.ref] := by simp [TempH.refs, hf]
    have h1 : ∀ x, x ∉ t.refs → dataAt (heap.modify f.ref (·.write c)).2 x = dataAt heap x := fun x hx =>
      dataAt_write heap f.ref c (by simpa [hc] using hx)
    generalize hz : heap.modify f.ref (·.write c) = z at *
    obtain ⟨y, heap'⟩ := z
    cases y with
    | error e => exact ⟨h1, fun h => by simp⟩
    | ok u =>
      refine ⟨h1, ?_⟩
      rintro ⟨f', o, h4, h3, h5, h6, h7⟩ y hy
      rw [hf, Option.some.injEq] at h4
      subst h4
      obtain ⟨o', p1, p2, p3⟩ := modify_write h5 h6 h7 hz
      simp only [Except.ok.injEq] at hy
      exact ⟨hy.symm, f, o', hf, h3, p1, p2, p3⟩

/-- The switch to a temporary file. -/
theorem ConvH.switch_tells (os : Os) (a : NewFileArgs) (d : Bytes) (c : ConvH) (heap : Heap) :
    (∀ x, x < heap.length → dataAt (c.switch os heap).2.2 x = dataAt heap x) ∧
    ((c.switch os heap).1 = .ok () → c.memory.activated = some true ∧ (c.switch os heap).2.1.switched = true ∧
      (c.memory.HasFile a d heap → (c.switch os heap).2.1.temp.HasFile a d (c.switch os heap).2.2)) := by
  unfold ConvH.switch
  obtain ⟨h1, h2, h3⟩ := c.memory.fileComplete_tells a d c.received heap
  obtain ⟨h0, hcur⟩ := c.memory.fileComplete_only c.received heap
  have hrw : ∀ f, (c.memory.fileComplete c.received heap).1 = .ok (some f) →
      ∀ o, (c.memory.fileComplete c.received heap).2[f.ref]? = some o → o.pos = 0 := by
    intro f hf o ho
    unfold MemoryH.fileComplete at hf ho
    split at hf <;> try cases hf
    rename_i hact
    rw [hact] at ho
    simp only at ho
    split at hf
    · rename_i r args hr hargs
      rw [hr, hargs] at ho
      simp only at ho
      unfold Heap.modify at hf ho
      cases hx : heap[r]? with
      | none => rw [hx] at hf; cases hf
      | some o1 =>
        rw [hx] at hf ho
        unfold FileObj.rewind at hf ho
        simp only at hf ho
        by_cases hcl : o1.closed = true
        · rw [if_pos hcl] at hf; cases hf
        · rw [if_neg hcl] at hf ho
          simp only [Except.ok.injEq, Option.some.injEq] at hf
          subst hf
          obtain ⟨hi, -⟩ := List.getElem?_eq_some_iff.1 hx
          simp only at ho
          rw [List.getElem?_set_self hi] at ho
          cases ho
          rfl
    · cases hf
  generalize c.memory.fileComplete c.received heap = z at *
  rcases z with ⟨(e | (_ | f)), heap1⟩
  · exact ⟨fun x _ => h1 x, by simp⟩
  · exact ⟨fun x _ => h1 x, by simp⟩
  simp only at h1 ⊢
  split
  · exact ⟨fun x _ => h1 x, by simp⟩
  rename_i o ho
  split
  · exact ⟨fun x _ => h1 x, by simp⟩
  rename_i content o' hro
  have hpos := hrw f rfl o ho
  have hco : content = o.data ∧ o'.data = o.data := by
    unfold FileObj.readAll at hro
    split at hro
    · cases hro
    · cases hro
      exact ⟨by simp [hpos], rfl⟩
  have hd1 : ∀ x, dataAt (heap1.set f.ref o') x = dataAt heap x := fun x =>
    (dataAt_set ho hco.2 x).trans (h1 x)
  have hlen : heap.length ≤ (heap1.set f.ref o').length := by simpa using h0.len
  obtain ⟨n1, n2⟩ := TempH.newFile_tells os { f.args with contentLength := some 0 } { hasSettings := true } (heap1.set f.ref o')
  obtain ⟨n0, -, n3, -⟩ := TempH.newFile_only os { hasSettings := true } { f.args with contentLength := some 0 } (heap1.set f.ref o')
  generalize TempH.newFile os { hasSettings := true } { f.args with contentLength := some 0 } (heap1.set f.ref o') = z at *
  have hd2 : ∀ x, x < heap.length → dataAt z.2.2 x = dataAt heap x := fun x hx => by
    rw [← hd1 x]
    unfold dataAt
    rw [n1 x (by omega)]
  rcases z with ⟨(e | _), t, heap2⟩
  · exact ⟨hd2, by simp⟩
  simp only at n0 n1 n2 n3 hd2 ⊢
  have hnew := n3 trivial
  have hhas := n2 trivial
  obtain ⟨g1, -⟩ := t.receive_tells a d content heap2
  have g2 := (t.receive_tells { f.args with contentLength := some 0 } [] content heap2).2 hhas
  generalize t.receive content heap2 = z at *
  have hd3 : ∀ x, x < heap.length → dataAt z.2 x = dataAt heap x := fun x hx => by
    rw [g1 x (fun hm => by have := hnew x hm; omega)]
    exact hd2 x hx
  rcases z with ⟨(e | y), heap3⟩
  · exact ⟨hd3, by simp⟩
  · refine ⟨hd3, fun _ => ⟨(h2 f rfl).2, rfl, fun hm => ?_⟩⟩
    obtain ⟨e1, e2, e3⟩ := (h3 hm).2 f rfl
    obtain ⟨-, f', o2, q1, q2, q3, q4, q5⟩ := g2 y rfl
    have hcd : content = d := by
      have := (h1 f.ref).trans e3
      simp only [dataAt, ho, Option.map_some, Option.some.injEq] at this
      rw [hco.1, this]
    refine ⟨f', o2, q1, ⟨?_, ?_⟩, q3, by simpa [hcd] using q4, by simpa [hcd] using q5⟩
    · rw [q2.name, e1]
    · rcases q2.args with h | h
      · exact .inr (by rw [h, e1])
      · exact .inr (by rw [h, e1])

theorem receive_tells (os : Os) (a : NewFileArgs) (d c : Bytes) (b : Builtin) (heap : Heap) :
    (∀ x, x < heap.length → x ∉ b.cur → dataAt (b.receive os c heap).2.2 x = dataAt heap x) ∧
    (b.Through → b.receive os c heap = (.ok (some c), b, heap)) ∧
    (b.NoFile → ∀ y, (b.receive os c heap).1 = .ok y → y = none ∧ (b.receive os c heap).2.1.NoFile) ∧
    (b.HasFile a d heap → ∀ y, (b.receive os c heap).1 = .ok y →
      y = none ∧ (b.receive os c heap).2.1.HasFile a (d ++ c) (b.receive os c heap).2.2) := by
  cases b with
  | memory m =>
    obtain ⟨h1, h2⟩ := m.receive_tells a d c heap
    exact ⟨fun x _ hx => h1 x hx, fun h => by simp [Builtin.receive, MemoryH.receive, show m.activated = some false from h],
      fun h => h.elim, h2⟩
  | temp t =>
    obtain ⟨h1, h2⟩ := t.receive_tells a d c heap
    exact ⟨fun x _ hx => h1 x hx, fun h => h.elim, fun h => h.elim, h2⟩
  | conv k =>
    simp only [Builtin.receive, ConvH.receive]
    cases hm : k.fileMax with
    | none => exact ⟨fun _ _ _ => rfl, fun h => h.elim, by simp, by simp⟩
    | some limit =>
      simp only
      have key : ∀ x k1 heap1, (if k.switched = false ∧ (k.received : Int) + c.length > limit then k.switch os heap
            else (.ok (), k, heap) : Res (ConvH × Heap) Unit) = (x, k1, heap1) →
          heap.length ≤ heap1.length ∧ (∀ x, x < heap.length → dataAt heap1 x = dataAt heap x) ∧
          (∀ r ∈ (Builtin.conv k1).cur, r ∈ (Builtin.conv k).cur ∨ heap.length ≤ r) ∧
          (x = .ok () → ((Builtin.conv k).NoFile → (Builtin.conv k1).NoFile) ∧
            ((Builtin.conv k).HasFile a d heap → (Builtin.conv k1).HasFile a d heap1)) := by
        intro x k1 heap1 he
        by_cases hs : k.switched = false ∧ (k.received : Int) + c.length > limit
        · rw [if_pos hs] at he
          obtain ⟨s1, s2, s3, s4⟩ := k.switch_only os heap
          obtain ⟨g1, g2⟩ := k.switch_tells os a d heap
          rw [he] at s1 s2 s3 s4 g1 g2
          simp only at s1 s2 s3 s4 g1 g2
          refine ⟨s1.len, g1, ?_, ?_⟩
          · intro r hr
            by_cases hx : x = .ok ()
            · obtain ⟨t1, t2, t3⟩ := s4 hx
              simp only [Builtin.cur, t1, if_true] at hr
              exact .inr (t3 r hr).1
            · have := s3 hx
              subst this
              exact .inl hr
          · intro hx
            obtain ⟨q1, q2, q3⟩ := g2 hx
            refine ⟨fun h => absurd q1 h.2, fun h => ?_⟩
            simp only [Builtin.HasFile, hs.1, Bool.false_eq_true, if_false] at h
            simp only [Builtin.HasFile, q2, if_true]
            exact q3 h
        · rw [if_neg hs] at he
          cases he
          exact ⟨Nat.le_refl _, fun _ _ => rfl, fun r hr => .inl hr, fun _ => ⟨fun h => h, fun h => h⟩⟩
      generalize hz : (if k.switched = false ∧ (k.received : Int) + c.length > limit then k.switch os heap
            else (.ok (), k, heap) : Res (ConvH × Heap) Unit) = z at *
      rcases z with ⟨(e | _), k1, heap1⟩
      · obtain ⟨k0, k2, -, -⟩ := key _ _ _ rfl
        exact ⟨fun x hx _ => k2 x hx, fun h => h.elim, by simp, by simp⟩
      · obtain ⟨k0, k2, k3, k4⟩ := key _ _ _ rfl
        obtain ⟨k4, k5⟩ := k4 rfl
        simp only
        have hr : ∀ y heap2, (if k1.switched then k1.temp.receive c heap1 else k1.memory.receive c heap1) = (y, heap2) →
            (∀ x, x ∉ (Builtin.conv k1).cur → dataAt heap2 x = dataAt heap1 x) ∧
            ((Builtin.conv k1).HasFile a d heap1 → ∀ z, y = .ok z → (Builtin.conv k1).HasFile a (d ++ c) heap2) := by
          intro y heap2 he
          simp only [Builtin.cur, Builtin.HasFile]
          split at he
          · obtain ⟨r1, r2⟩ := k1.temp.receive_tells a d c heap1
            rw [he] at r1 r2
            simp only [if_pos ‹k1.switched = true›]
            exact ⟨r1, fun h z hz => (r2 h z hz).2⟩
          · obtain ⟨r1, r2⟩ := k1.memory.receive_tells a d c heap1
            rw [he] at r1 r2
            simp only [if_neg ‹¬k1.switched = true›]
            exact ⟨r1, fun h z hz => (r2 h z hz).2⟩
        have comb : ∀ heap2, (∀ x, x ∉ (Builtin.conv k1).cur → dataAt heap2 x = dataAt heap1 x) →
            ∀ x, x < heap.length → x ∉ (Builtin.conv k).cur → dataAt heap2 x = dataAt heap x := by
          intro heap2 ho x hx hn
          rw [ho x, k2 x hx]
          intro hm
          rcases k3 x hm with h | h
          · exact hn h
          · omega
        generalize (if k1.switched then k1.temp.receive c heap1 else k1.memory.receive c heap1) = z at *
        rcases z with ⟨(e | y), heap2⟩
        · exact ⟨comb heap2 (hr _ _ rfl).1, fun h => h.elim, by simp, by simp⟩
        · refine ⟨comb heap2 (hr _ _ rfl).1, fun h => h.elim, ?_, ?_⟩
          · intro h z hz
            simp only [Except.ok.injEq] at hz
            exact ⟨hz.symm, k4 h⟩
          · intro h z hz
            simp only [Except.ok.injEq] at hz
            exact ⟨hz.symm, (hr _ _ rfl).2 (k5 h) y rfl⟩

/-! ### The world -/

section
variable {ρ : Type} {os : Os} {h0 : Heap} {n : Nat}

/-- The handler that takes the file, if any, has it. -/
def Taken (a : NewFileArgs) (d : Bytes) (heap : Heap) (hs : List Builtin) (cs : List Nat) : Prop :=
  (∀ b ∈ hs, b.Through) ∨ ∃ pre b post, hs = pre ++ b :: post ∧ (∀ b ∈ pre, b.Through) ∧ (b.HasFile a d heap ∨ b.NoFile) ∧
    cs.getD pre.length 0 = d.length ∧ ∀ j, pre.length < j → cs.getD j 0 = 0

/-- Collected files are as they were announced and received. -/
def Recorded (heap : Heap) (done : List (NewFileArgs × Bytes × Uploaded)) : Prop :=
  ∀ x ∈ done, Says x.1 x.2.2 ∧ x.2.2.size = x.2.1.length ∧ dataAt heap x.2.2.ref = some x.2.1

def doneFiles (done : List (NewFileArgs × Bytes × Uploaded)) : List Uploaded := done.map fun x => x.2.2

/-- Between files. -/
def Clean (h0 : Heap) (n : Nat) (w : BWorld) (done : List (NewFileArgs × Bytes × Uploaded)) : Prop :=
  Apart h0 n w (doneFiles done) ∧ Recorded w.heap done

/-- While a file arrives. -/
def Filling (h0 : Heap) (n : Nat) (a : NewFileArgs) (d : Bytes) (cs : List Nat) (w : BWorld)
    (done : List (NewFileArgs × Bytes × Uploaded)) : Prop :=
  Held h0 n w (doneFiles done) ∧ Recorded w.heap done ∧ cs.length = n ∧ Taken a d w.heap w.hs cs

theorem Recorded.congr {heap heap' : Heap} {done : List (NewFileArgs × Bytes × Uploaded)} (h : Recorded heap done)
    (e : ∀ f ∈ doneFiles done, dataAt heap' f.ref = dataAt heap f.ref) : Recorded heap' done := fun x hx =>
  ⟨(h x hx).1, (h x hx).2.1, (e _ (List.mem_map.2 ⟨x, hx, rfl⟩)).trans (h x hx).2.2⟩

theorem Builtin.HasFile.congr {a : NewFileArgs} {d : Bytes} {heap heap' : Heap} {b : Builtin} (h : b.HasFile a d heap)
    (e : ∀ x, x < heap.length → heap'[x]? = heap[x]?) : b.HasFile a d heap' := by
  have mem : ∀ m : MemoryH, m.HasFile a d heap → m.HasFile a d heap' := by
    rintro m ⟨h1, h2, r, o, h3, h4, h5⟩
    obtain ⟨hi, -⟩ := List.getElem?_eq_some_iff.1 h4
    exact ⟨h1, h2, r, o, h3, by rw [e r hi, h4], h5⟩
  have tmp : ∀ t : TempH, t.HasFile a d heap → t.HasFile a d heap' := by
    rintro t ⟨f, o, h3, h2, h4, h5⟩
    obtain ⟨hi, -⟩ := List.getElem?_eq_some_iff.1 h4
    exact ⟨f, o, h3, h2, by rw [e f.ref hi, h4], h5⟩
  cases b with
  | memory m => exact mem m h
  | temp t => exact tmp t h
  | conv c =>
    simp only [Builtin.HasFile] at h ⊢
    split
    · rw [if_pos ‹_›] at h; exact tmp _ h
    · rw [if_neg ‹_›] at h; exact mem _ h

theorem newFiles_taken (hos : ∀ x, os.tempFile x ≠ .error .stopFutureHandlers) (a : NewFileArgs) :
    ∀ (post pre : List Builtin) (heap : Heap), Taken a [] heap pre (List.replicate n 0) →
    let z := newFiles (builtinOps ρ os n) a (List.range' pre.length post.length) ⟨pre ++ post, heap⟩
    (∀ x, x < heap.length → z.2.heap[x]? = heap[x]?) ∧ (z.1 = .ok () → Taken a [] z.2.heap z.2.hs (List.replicate n 0)) := by
  have zero : ∀ j, (List.replicate n 0).getD j 0 = 0 := by
    intro j
    simp only [List.getD_eq_getElem?_getD, List.getElem?_replicate]
    split <;> rfl
  intro post
  induction post with
  | nil =>
    intro pre heap h
    simp only [List.length_nil, List.range'_zero, newFiles, List.append_nil]
    exact ⟨fun _ _ => trivial, fun _ => h⟩
  | cons b post ih =>
    intro pre heap hp
    rw [List.length_cons, List.range'_succ]
    obtain ⟨m1, m2, m3⟩ := newFile_tells os hos a b heap
    have hlen := (newFile_moves os hos a b heap).1.len
    have e : (builtinOps ρ os n).newFile pre.length a ⟨pre ++ b :: post, heap⟩ =
        ((b.newFile os a heap).1, ⟨pre ++ (b.newFile os a heap).2.1 :: post, (b.newFile os a heap).2.2⟩) := by
      simp [builtinOps, BWorld.on]
    unfold newFiles
    rw [e]
    clear e
    generalize b.newFile os a heap = z at *
    obtain ⟨r, b', heap'⟩ := z
    simp only at m1 m2 m3 hlen
    -- the handlers so far, with the one that has just been told
    have next : (b'.Through ∨ b'.HasFile a [] heap' ∨ b'.NoFile) → ∀ tl, (∀ b ∈ pre, b.Through) ∧ b'.Through ∨
        Taken a [] heap' (pre ++ b' :: tl) (List.replicate n 0) := by
      intro hb tl
      rcases hp with hp | ⟨p, c, q, rfl, h2, h3, h4, h5⟩
      · rcases hb with hb | hb
        · exact .inl ⟨hp, hb⟩
        · exact .inr (.inr ⟨pre, b', tl, rfl, hp, hb, by rw [zero]; rfl, fun j _ => zero j⟩)
      · refine .inr (.inr ⟨p, c, q ++ b' :: tl, by simp, h2, ?_, h4, h5⟩)
        rcases h3 with h3 | h3
        · exact .inl (h3.congr m1)
        · exact .inr h3
    cases r with
    | ok u =>
      simp only
      have ht : Taken a [] heap' (pre ++ [b']) (List.replicate n 0) := by
        rcases next (m2 rfl) [] with ⟨h1, h2⟩ | h
        · refine .inl fun x hx => ?_
          rcases List.mem_append.1 hx with hx | hx
          · exact h1 x hx
          · rw [List.mem_singleton] at hx; subst hx; exact h2
        · exact h
      have := ih (pre ++ [b']) heap' ht
      simp only [List.length_append, List.length_singleton, List.append_assoc, List.singleton_append] at this
      exact ⟨fun x hx => (this.1 x (Nat.lt_of_lt_of_le hx hlen)).trans (m1 x hx), this.2⟩
    | error e =>
      by_cases hst : e = .stopFutureHandlers
      · subst hst
        simp only
        refine ⟨m1, fun _ => ?_⟩
        have hf := m3 rfl
        rcases hp with hp | ⟨p, c, q, rfl, h2, h3, h4, h5⟩
        · exact .inr ⟨pre, b', post, rfl, hp, .inl hf, by rw [zero]; rfl, fun j _ => zero j⟩
        · refine .inr ⟨p, c, q ++ b' :: post, by simp, h2, ?_, h4, h5⟩
          rcases h3 with h3 | h3
          · exact .inl (h3.congr m1)
          · exact .inr h3
      · have : ∀ w', (match ((.error e, w') : Res BWorld Unit) with
            | (.error .stopFutureHandlers, w) => (.ok (), w)
            | (.error e, w) => (.error e, w)
            | (.ok (), w) => newFiles (builtinOps ρ os n) a (List.range' (pre.length + 1) post.length) w) = (.error e, w') := by
          intro w'
          cases e <;> first | rfl | exact absurd rfl hst
        simp only [this]
        exact ⟨m1, by simp⟩

/-- Handlers that pass the data on. -/
theorem feedChunk_through (c : Bytes) : ∀ (mid pre post : List Builtin) (heap : Heap) (cs : List Nat) (rest : Nat),
    (∀ b ∈ mid, b.Through) → ∃ cs', cs'.length = cs.length ∧ (∀ j, pre.length + mid.length ≤ j → cs'.getD j 0 = cs.getD j 0) ∧
      feedChunk (builtinOps ρ os n) (List.range' pre.length (mid.length + rest)) c cs ⟨pre ++ mid ++ post, heap⟩ =
        feedChunk (builtinOps ρ os n) (List.range' (pre.length + mid.length) rest) c cs' ⟨pre ++ mid ++ post, heap⟩ := by
  intro mid
  induction mid with
  | nil => intro pre post heap cs rest _; exact ⟨cs, rfl, fun _ _ => rfl, by simp⟩
  | cons b mid ih =>
    intro pre post heap cs rest h
    have hb := (receive_tells os ⟨[], [], [], none, none, [], none⟩ [] c b heap).2.1 (h b (by simp))
    have e : (builtinOps ρ os n).receive pre.length c (cs.getD pre.length 0) ⟨pre ++ (b :: mid) ++ post, heap⟩ =
        (.ok (some c), ⟨pre ++ (b :: mid) ++ post, heap⟩) := by
      simp [builtinOps, BWorld.on, hb]
    obtain ⟨cs', h1, h2, h3⟩ := ih (pre ++ [b]) post heap (cs.set pre.length (cs.getD pre.length 0 + c.length)) rest
      (fun x hx => h x (by simp [hx]))
    refine ⟨cs', by simpa using h1, ?_, ?_⟩
    · intro j hj
      simp only [List.length_cons] at hj
      rw [h2 j (by simp; omega)]
      simp only [List.getD_eq_getElem?_getD]
      rw [List.getElem?_set_ne (by omega)]
    · rw [List.length_cons, Nat.add_right_comm, List.range'_succ]
      conv_lhs => unfold feedChunk
      rw [e]
      simp only
      simp only [List.length_append, List.length_singleton, List.append_assoc, List.singleton_append] at h3
      rw [show pre.length + (mid.length + 1) = pre.length + 1 + mid.length by omega]
      simpa using h3

theorem feedChunk_taken (a : NewFileArgs) (d c : Bytes) (cs : List Nat) (w : BWorld) (done : List (NewFileArgs × Bytes × Uploaded))
    (h : Filling h0 n a d cs w done) :
    let z := feedChunk (builtinOps ρ os n) (List.range n) c cs w
    Recorded z.2.2.heap done ∧ (z.1 = .ok () → z.2.1.length = n ∧ Taken a (d ++ c) z.2.2.heap z.2.2.hs z.2.1) := by
  obtain ⟨⟨h1, h2⟩, h3, h4, h5⟩ := h
  obtain ⟨hs, heap⟩ := w
  have hn : hs.length = n := h1.count
  simp only at h2 h3 h5
  rcases h5 with h5 | ⟨pre, b, post, rfl, h6, h7, h8, h9⟩
  · obtain ⟨cs', g1, g2, g3⟩ := feedChunk_through (ρ := ρ) (os := os) (n := n) c hs [] [] heap cs 0 h5
    simp only [List.length_nil, List.nil_append, Nat.zero_add, Nat.add_zero, ← List.range_eq_range', List.range'_zero, feedChunk,
      List.append_nil, hn] at g3
    simp only [g3]
    exact ⟨h3, fun _ => ⟨g1.trans h4, .inl h5⟩⟩
  · obtain ⟨cs', g1, g2, g3⟩ := feedChunk_through (ρ := ρ) (os := os) (n := n) c pre [] (b :: post) heap cs (post.length + 1) h6
    have hlen : pre.length + (post.length + 1) = n := by simpa using hn
    simp only [List.length_nil, List.nil_append, Nat.zero_add, hlen, ← List.range_eq_range'] at g3
    obtain ⟨r1, -, r3, r4⟩ := receive_tells os a d c b heap
    have hrec : ∀ f ∈ doneFiles done, dataAt (b.receive os c heap).2.2 f.ref = dataAt heap f.ref := by
      intro f hf
      refine r1 f.ref (h1.files f hf).2 fun hm => ?_
      exact h2 b (by simp) f.ref hm (List.mem_map.2 ⟨f, hf, rfl⟩)
    have e : (builtinOps ρ os n).receive pre.length c (cs'.getD pre.length 0) ⟨pre ++ b :: post, heap⟩ =
        ((b.receive os c heap).1, ⟨pre ++ (b.receive os c heap).2.1 :: post, (b.receive os c heap).2.2⟩) := by
      simp [builtinOps, BWorld.on]
    have step : feedChunk (builtinOps ρ os n) (List.range n) c cs ⟨pre ++ b :: post, heap⟩ =
        feedChunk (builtinOps ρ os n) (pre.length :: List.range' (pre.length + 1) post.length) c cs' ⟨pre ++ b :: post, heap⟩ := by
      rw [g3, List.range'_succ]
    simp only
    rw [step]
    unfold feedChunk
    rw [e]
    generalize b.receive os c heap = z at *
    obtain ⟨x, b', heap'⟩ := z
    simp only at r3 r4 hrec
    cases x with
    | error e => exact ⟨h3.congr hrec, by simp⟩
    | ok y =>
      have hy : y = none ∧ (b'.HasFile a (d ++ c) heap' ∨ b'.NoFile) := by
        rcases h7 with h7 | h7
        · exact ⟨(r4 h7 y rfl).1, .inl (r4 h7 y rfl).2⟩
        · exact ⟨(r3 h7 y rfl).1, .inr (r3 h7 y rfl).2⟩
      obtain ⟨rfl, hy⟩ := hy
      simp only
      refine ⟨h3.congr hrec, fun _ => ⟨by simp [g1, h4], .inr ⟨pre, b', post, rfl, h6, hy, ?_, ?_⟩⟩⟩
      · have := g2 pre.length (by simp)
        rw [this, h8]
        simp only [List.getD_eq_getElem?_getD]
        rw [List.getElem?_set_self (by rw [g1, h4]; omega)]
        simp
      · intro j hj
        have := g2 j (by simp; omega)
        rw [h9 j hj] at this
        simp only [List.getD_eq_getElem?_getD] at this ⊢
        rw [List.getElem?_set_ne (by omega)]
        exact this

theorem completeLoop_data (cs : List Nat) (x : Nat) : ∀ (is : List Nat) (w : BWorld),
    dataAt (completeLoop (builtinOps ρ os n) cs is w).2.heap x = dataAt w.heap x := by
  intro is
  induction is with
  | nil => intro w; rfl
  | cons i is ih =>
    intro w
    have h1 : dataAt ((builtinOps ρ os n).fileComplete i (cs.getD i 0) w).2.heap x = dataAt w.heap x := by
      simp only [builtinOps]
      rcases on_cases w i (fun b hp => b.fileComplete (cs.getD i 0) hp) with ⟨e, -⟩ | ⟨pre, b, post, e1, -, e2⟩
      · rw [e]
      · rw [e2]
        exact (fileComplete_tells ⟨[], [], [], none, none, [], none⟩ [] _ b w.heap).1 x
    unfold completeLoop
    generalize (builtinOps ρ os n).fileComplete i (cs.getD i 0) w = z at *
    rcases z with ⟨(e | (_ | f)), w'⟩
    · exact h1
    · exact (ih w').trans h1
    · simp only
      split
      · exact h1
      · exact (ih w').trans h1

/-- Handlers whose counters are 0 return no file. -/
theorem completeLoop_zero (cs : List Nat) : ∀ (is : List Nat) (w : BWorld), (∀ i ∈ is, cs.getD i 0 = 0) →
    ∀ f, (completeLoop (builtinOps ρ os n) cs is w).1 ≠ .ok (some f) := by
  intro is
  induction is with
  | nil => intro w _ f; simp [completeLoop]
  | cons i is ih =>
    intro w hi f
    have h1 : ∀ f, ((builtinOps ρ os n).fileComplete i (cs.getD i 0) w).1 = .ok (some f) → f.size = cs.getD i 0 := by
      intro f
      simp only [builtinOps]
      rcases on_cases w i (fun b hp => b.fileComplete (cs.getD i 0) hp) with ⟨-, e⟩ | ⟨pre, b, post, e1, -, e2⟩
      · rw [e]; simp
      · rw [e2]
        exact fun h => ((fileComplete_tells ⟨[], [], [], none, none, [], none⟩ [] _ b w.heap).2.1 f h).1
    unfold completeLoop
    generalize (builtinOps ρ os n).fileComplete i (cs.getD i 0) w = z at *
    rcases z with ⟨(e | (_ | g)), w'⟩
    · simp
    · exact ih w' (fun j hj => hi j (by simp [hj])) f
    · simp only
      have hg := h1 g rfl
      rw [hi i (by simp)] at hg
      have ht : (builtinOps ρ os n).truthy g w' = false := by simp [builtinOps, hg]
      rw [ht]
      exact ih w' (fun j hj => hi j (by simp [hj])) f

/-- Handlers that pass the data on return no file. -/
theorem completeLoop_through (cs : List Nat) : ∀ (mid pre post : List Builtin) (heap : Heap) (rest : Nat),
    (∀ b ∈ mid, b.Through) →
      completeLoop (builtinOps ρ os n) cs (List.range' pre.length (mid.length + rest)) ⟨pre ++ mid ++ post, heap⟩ =
        completeLoop (builtinOps ρ os n) cs (List.range' (pre.length + mid.length) rest) ⟨pre ++ mid ++ post, heap⟩ := by
  intro mid
  induction mid with
  | nil => intro pre post heap rest _; simp
  | cons b mid ih =>
    intro pre post heap rest h
    have hb : b.fileComplete (cs.getD pre.length 0) heap = (.ok none, b, heap) := by
      have := h b (by simp)
      cases b with
      | memory m => simp [Builtin.fileComplete, MemoryH.fileComplete, show m.activated = some false from this]
      | temp => exact this.elim
      | conv => exact this.elim
    have e : (builtinOps ρ os n).fileComplete pre.length (cs.getD pre.length 0) ⟨pre ++ (b :: mid) ++ post, heap⟩ =
        (.ok none, ⟨pre ++ (b :: mid) ++ post, heap⟩) := by
      rw [List.getD_eq_getElem?_getD] at hb
      simp [builtinOps, BWorld.on, hb]
    have := ih (pre ++ [b]) post heap rest (fun x hx => h x (by simp [hx]))
    rw [List.length_cons, Nat.add_right_comm, List.range'_succ]
    conv_lhs => unfold completeLoop
    rw [e]
    simp only
    rw [show pre.length + (mid.length + 1) = pre.length + 1 + mid.length by omega]
    simpa using this

theorem completeLoop_taken (a : NewFileArgs) (d : Bytes) (cs : List Nat) (w : BWorld) (done : List (NewFileArgs × Bytes × Uploaded))
    (h : Filling h0 n a d cs w done) (f : Uploaded)
    (hf : (completeLoop (builtinOps ρ os n) cs (List.range n) w).1 = .ok (some f)) :
    Says a f ∧ f.size = d.length ∧ dataAt w.heap f.ref = some d := by
  obtain ⟨⟨h1, -⟩, h3, h4, h5⟩ := h
  obtain ⟨hs, heap⟩ := w
  have hn : hs.length = n := h1.count
  simp only at h5
  rcases h5 with h5 | ⟨pre, b, post, rfl, h6, h7, h8, h9⟩
  · have := completeLoop_through (ρ := ρ) (os := os) (n := n) cs hs [] [] heap 0 h5
    simp only [List.length_nil, List.nil_append, Nat.zero_add, Nat.add_zero, ← List.range_eq_range', List.range'_zero,
      List.append_nil, hn] at this
    rw [this] at hf
    simp [completeLoop] at hf
  · have := completeLoop_through (ρ := ρ) (os := os) (n := n) cs pre [] (b :: post) heap (post.length + 1) h6
    have hlen : pre.length + (post.length + 1) = n := by simpa using hn
    simp only [List.length_nil, List.nil_append, Nat.zero_add, hlen, ← List.range_eq_range'] at this
    rw [this, List.range'_succ] at hf
    have zero := fun w => completeLoop_zero (ρ := ρ) (os := os) (n := n) cs (List.range' (pre.length + 1) post.length) w
      (fun i hi => h9 i (by simp only [List.mem_range'_1] at hi; omega))
    have e : (builtinOps ρ os n).fileComplete pre.length (cs.getD pre.length 0) ⟨pre ++ b :: post, heap⟩ =
        ((b.fileComplete d.length heap).1, ⟨pre ++ (b.fileComplete d.length heap).2.1 :: post, (b.fileComplete d.length heap).2.2⟩) := by
      rw [h8]; simp [builtinOps, BWorld.on]
    obtain ⟨-, c2, c3⟩ := fileComplete_tells a d d.length b heap
    unfold completeLoop at hf
    rw [e] at hf
    generalize b.fileComplete d.length heap = z at *
    obtain ⟨x, b', heap'⟩ := z
    simp only at c2 c3
    rcases x with e | (_ | g)
    · cases hf
    · exact absurd hf (zero _ f)
    · simp only at hf
      split at hf
      · simp only [Except.ok.injEq, Option.some.injEq] at hf
        subst hf
        obtain ⟨q1, q2, -⟩ := c2 g rfl
        rcases h7 with h7 | h7
        · obtain ⟨s1, s2⟩ := c3 h7 g rfl
          exact ⟨s1, q1, s2⟩
        · exact absurd h7 q2
      · exact absurd hf (zero _ f)

/-- The handlers of the package tell the truth about the files they return. -/
theorem builtin_truthful (hos : ∀ x, os.tempFile x ≠ .error .stopFutureHandlers) :
    (builtinOps ρ os n).Truthful (Clean h0 n) (Filling h0 n) where
  idle a d cs w done h := ⟨h.1.1, h.2.1⟩
  newFiles a w done h := by
    obtain ⟨t1, t2⟩ := (builtin_tracks (ρ := ρ) (h0 := h0) (n := n) hos).newFiles a w _ h.1
    have hc := h.1.count
    have hfiles := h.1.files
    obtain ⟨hs, heap⟩ := w
    simp only at hc
    have := newFiles_taken (ρ := ρ) (n := n) hos a hs [] heap (.inl (by simp))
    simp only [List.length_nil, List.nil_append, ← List.range_eq_range', hc] at this
    have hr : Recorded (newFiles (builtinOps ρ os n) a (List.range (builtinOps ρ os n).count) ⟨hs, heap⟩).2.heap done := by
      refine h.2.congr fun f hf => ?_
      unfold dataAt
      exact congrArg _ (this.1 f.ref (hfiles f hf).2)
    exact ⟨⟨t1, hr⟩, fun hok => ⟨t2 hok, hr, by simp [builtinOps], this.2 hok⟩⟩
  feed a d c cs w done h := by
    have ht := feedChunk_tracks (builtin_tracks (ρ := ρ) (h0 := h0) (n := n) hos) _ (List.range n) c cs w h.1
    obtain ⟨r1, r2⟩ := feedChunk_taken (ρ := ρ) (os := os) a d c cs w done h
    exact ⟨⟨ht.1, r1⟩, fun hok => ⟨ht, r1, r2 hok⟩⟩
  complete a d cs w done h := by
    obtain ⟨t1, t2⟩ := completeLoop_tracks (builtin_tracks (ρ := ρ) (h0 := h0) (n := n) hos) _ cs (List.range n) w h.1
    have hd := fun x => completeLoop_data (ρ := ρ) (os := os) (n := n) cs x (List.range n) w
    have hr := h.2.1.congr fun f _ => hd f.ref
    refine ⟨⟨t1, hr⟩, fun f hf => ⟨t2 f hf, ?_⟩⟩
    obtain ⟨q1, q2, q3⟩ := completeLoop_taken (ρ := ρ) (os := os) a d cs w done h f hf
    intro x hx
    rcases List.mem_cons.1 hx with rfl | hx
    · exact ⟨q1, q2, (hd f.ref).trans q3⟩
    · exact hr x hx
  uploadComplete i w done h := h
  close i w done h := by
    refine ⟨(builtin_tracks (ρ := ρ) hos).close i w _ h.1, ?_⟩
    refine h.2.congr fun f _ => ?_
    simp only [builtinOps]
    rcases on_cases w i (fun b h => (.ok (), b, b.close h)) with ⟨e, -⟩ | ⟨pre, b, post, e1, -, e2⟩
    · rw [e]
    · rw [e2]
      exact close_tells b w.heap f.ref

end

section
variable {ρ : Type} [Producer ρ] {L : Lawful ρ} {C : Codecs} {os : Os} {fuel64 : Nat} {hs : List Builtin} {heap : Heap}

/-- **C120.**  Every file that `MultiPartParser.parse` returns comes from one part of the body: it is stored under the
name of the field, its name, content type, character set, other parameters and transfer encoding are those of the
header of the part, its content is that of the part (decoded, if it was sent in base64) and its size the length of the
content.  And every field comes from a part.  This holds for every body, chunk size and list of new handlers. -/
theorem C120_parse (hos : ∀ x, os.tempFile x ≠ .error .stopFutureHandlers) (hn : ∀ b ∈ hs, NewHandler b)
    (S : Settings) (text : Bool) (m : MultiPart) (hc : 1 ≤ m.chunkSize) (input : LazyStream ρ) (hi : SOK L input)
    {post : MVD PostItem} {files : MVD Uploaded} {s' : LazyStream ρ} {w' : BWorld}
    (h : m.run C S (builtinOps ρ os hs.length) fuel64 text input ⟨hs, heap⟩ = (.ok (post, files), s', w')) :
    (∀ p ∈ items files, ∃ a d, FilePart C (b!"--" ++ m.boundary) (L.sc input) p.1 a d ∧ Says a p.2 ∧
      p.2.size = d.length ∧ dataAt w'.heap p.2.ref = some d) ∧
    ∀ p ∈ items post, FieldPart C S (b!"--" ++ m.boundary) (L.sc input) p.1 p.2 := by
  have key : ∀ {s' w'}, m.parse C S (builtinOps ρ os hs.length) fuel64 input ⟨hs, heap⟩ = (.ok (post, files), s', w') →
      (∀ p ∈ items files, ∃ a d, FilePart C (b!"--" ++ m.boundary) (L.sc input) p.1 a d ∧ Says a p.2 ∧
        p.2.size = d.length ∧ dataAt w'.heap p.2.ref = some d) ∧
      ∀ p ∈ items post, FieldPart C S (b!"--" ++ m.boundary) (L.sc input) p.1 p.2 := by
    intro s' w' h
    obtain ⟨done, ⟨-, h1⟩, h2, h3⟩ := parse_sound (L := L) (builtin_truthful (ρ := ρ) (h0 := heap) (n := hs.length) hos) C S fuel64 m hc
      (builtin_leaves L os hs.length) input ⟨hs, heap⟩ hi ⟨new_apart hn, by simp [Recorded]⟩ (by
        intro a input input1 w1 he
        have hraw := rawInputLoop_builtin (ρ := ρ) os hs.length a input heap hs []
        simp only [List.length_nil, List.nil_append, ← List.range_eq_range'] at hraw
        have hr : rawInputLoop (builtinOps ρ os hs.length) a (List.range (builtinOps ρ os hs.length).count) input ⟨hs, heap⟩ = _ := hraw
        rw [hr] at he
        simp only [Prod.mk.injEq, true_and] at he
        rw [← he.2]
        exact ⟨map_apart _ fun b hb => newHandler_refs (hn b hb) _, by simp [Recorded]⟩) h
    refine ⟨fun p hp => ?_, h3⟩
    obtain ⟨a, d, e1, e2⟩ := h2 p hp
    exact ⟨a, d, e2, h1 _ e1⟩
  cases text with
  | false => exact key h
  | true =>
    rcases C106_same_partial C S (builtinOps ρ os hs.length) fuel64 m hc (builtin_leaves L os hs.length) input ⟨hs, heap⟩ hi with h1 | h1
    · rw [h] at h1
      cases h1
    · exact key (h1 ▸ h)

end

/-! ### The form of a request -/

section
variable {ρ : Type} [Producer ρ] {L : Lawful ρ} {C : Codecs} {up : List UStr} {os : Os}
  {mods : Modules (Except Exc Builtin)} {names : List Bytes} {fuel64 : Nat} {hs : List Builtin} {heap : Heap}

/-- No form. -/
def NoForm (post : Option PostDict) (files : Option (MVD Uploaded)) : Prop :=
  (∀ p, post ≠ some (.form p)) ∧ items (files.getD []) = []

/-- The fields and the files are what one run of `MultiPartParser.parse` over `body` gave, with the separator that the
header announces. -/
def Origin (L : Lawful ρ) (C : Codecs) (os : Os) (fuel64 : Nat) (S : Settings) (body : Bytes) (info : Option Meta)
    (w : BWorld) (post : Option PostDict) (files : Option (MVD Uploaded)) : Prop :=
  NoForm post files ∨ ∃ (hs : List Builtin) (heap : Heap) (h : MVD Bytes) (m : MultiPart) (text : Bool)
      (input s' : LazyStream ρ) (p : MVD PostItem) (f : MVD Uploaded),
    (∀ b ∈ hs, NewHandler b) ∧ info.bind (·.headers) = some h ∧
    MultiPart.create C (builtinOps ρ os hs.length) ((h.get? b!"Content-Type").bind List.getLast?)
      ((h.get? b!"Content-Length").bind List.getLast?) = .ok m ∧
    SOK L input ∧ L.sc input = body ∧
    m.run C S (builtinOps ρ os hs.length) fuel64 text input ⟨hs, heap⟩ = (.ok (p, f), s', w) ∧
    post = some (.form p) ∧ files = some f

/-- Both pairs of dictionaries of a request. -/
def Origins (L : Lawful ρ) (C : Codecs) (os : Os) (fuel64 : Nat) (S : Settings) (body : Bytes) (w : BWorld)
    (r : Req ρ BWorld Uploaded) : Prop :=
  Origin L C os fuel64 S body r.info w r.post_ r.files_ ∧ Origin L C os fuel64 S body r.info w r.post r.files

/-- A request without fields and files. -/
structure Empty (r : Req ρ BWorld Uploaded) : Prop where
  inner : NoForm r.post_ r.files_
  outer : NoForm r.post r.files

theorem Empty.origins {r : Req ρ BWorld Uploaded} (h : Empty r) (S : Settings) (body : Bytes) (w : BWorld) :
    Origins L C os fuel64 S body w r := ⟨.inl h.inner, .inl h.outer⟩

omit [Producer ρ] in
theorem noForm_query (q : QDict) : NoForm (some (.query q)) (some []) := ⟨by simp, rfl⟩

omit [Producer ρ] in
theorem Empty.mark {r : Req ρ BWorld Uploaded} (h : Empty r) (S : Settings) (e : Exc) : Empty (markError C S e r).1 := by
  unfold markError
  cases queryDict C S none false
  · exact h
  · exact ⟨noForm_query _, h.outer⟩

theorem Origins.body {S : Settings} {body : Bytes} {w : BWorld} {r : Req ρ BWorld Uploaded}
    (hf : Origins L C os fuel64 S body w r) : Origins L C os fuel64 S body w (bodyCore S r).2 := by
  have f := bodyCore_frame S r
  unfold Origins
  rw [bodyCore_posts, bodyCore_files, f.post, f.files, f.info]
  exact hf

theorem parseByType_origins (hl : loadHandlers mods names = .ok hs) (hn : ∀ b ∈ hs, NewHandler b) (S : Settings)
    (r : Req ρ BWorld Uploaded) (hi : SOK L r.stream) (hb : Empty r) :
    let z := parseByType (namedEnv ρ C up os mods names fuel64) S (builtinOps ρ os hs.length) r ⟨hs, heap⟩
    Origins L C os fuel64 S (L.sc r.stream) z.2.2 z.2.1 := by
  have hup : let z := parseFileUpload (namedEnv ρ C up os mods names fuel64) S (builtinOps ρ os hs.length) r ⟨hs, heap⟩
      Empty z.2.1 ∧ ∀ p f, z.1 = .ok (p, f) →
        Origin L C os fuel64 S (L.sc r.stream) z.2.1.info z.2.2 (some (.form p)) (some f) := by
    have hload : (if (builtinOps ρ os hs.length).count = 0 then
        (namedEnv ρ C up os mods names fuel64).load ⟨hs, heap⟩ else (.ok (builtinOps ρ os hs.length), ⟨hs, heap⟩)) =
        (.ok (builtinOps ρ os hs.length), ⟨hs, heap⟩) := by
      simp only [namedEnv, hl, ite_self]
    unfold parseFileUpload
    cases hh : r.info.bind (·.headers) with
    | none => exact ⟨hb, by simp⟩
    | some h =>
      simp only [hload]
      have hb' : ∀ (s : LazyStream ρ) (H : Option (HandlerOps ρ BWorld Uploaded)), Empty ({ r with stream := s, handlers := H }) := fun s H => ⟨hb.1, hb.2⟩
      cases hm : MultiPart.create (namedEnv ρ C up os mods names fuel64).C (builtinOps ρ os hs.length)
          ((h.get? b!"Content-Type").bind List.getLast?) ((h.get? b!"Content-Length").bind List.getLast?) with
      | error e => exact ⟨hb' _ _, by simp⟩
      | ok m =>
        simp only
        refine ⟨hb' _ _, ?_⟩
        intro p f hpf
        exact .inr ⟨hs, heap, h, m, _, r.stream, _, p, f, hn, hh, hm, hi, rfl, Prod.ext hpf rfl, rfl, rfl⟩
  unfold parseByType
  cases r.contentType with
  | none => exact hb.origins _ _ _
  | some ct =>
    simp only
    split
    · generalize parseFileUpload (namedEnv ρ C up os mods names fuel64) S (builtinOps ρ os hs.length) r ⟨hs, heap⟩ = y at hup ⊢
      obtain ⟨x, r', w⟩ := y
      obtain ⟨h1, h2⟩ := hup
      simp only at h1 h2
      cases x with
      | ok pf =>
        obtain ⟨p, f⟩ := pf
        exact ⟨h2 p f rfl, .inl h1.outer⟩
      | error e =>
        have hm := h1.mark (C := (namedEnv ρ C up os mods names fuel64).C) S .multiPartParserError
        split
        · next heq =>
          cases heq
          exact hm.origins _ _ _
        · next heq =>
          cases heq
          exact h1.origins _ _ _
        · next heq => cases heq
    · split
      · have h := (hb.origins (L := L) (C := C) (os := os) (fuel64 := fuel64) S (L.sc r.stream) ⟨hs, heap⟩).body
        generalize bodyCore S r = y at h ⊢
        obtain ⟨x, r'⟩ := y
        cases x with
        | error e => exact h
        | ok b =>
          simp only
          cases queryDict (namedEnv ρ C up os mods names fuel64).C S (some b) false with
          | error e => exact h
          | ok q => exact ⟨.inl (noForm_query _), h.2⟩
      · cases queryDict (namedEnv ρ C up os mods names fuel64).C S none false with
        | error e => exact hb.origins _ _ _
        | ok q => exact ⟨.inl (noForm_query _), .inl hb.outer⟩

theorem parseBodyStream_origins (hl : loadHandlers mods names = .ok hs) (hn : ∀ b ∈ hs, NewHandler b) (S : Settings)
    (r : Req ρ BWorld Uploaded) (hi : SK L 2 r.stream) (hb : Empty r) :
    let z := parseBodyStream (namedEnv ρ C up os mods names fuel64) S (builtinOps ρ os hs.length) r ⟨hs, heap⟩
    Origins L C os fuel64 S (L.sc r.stream) z.2.2 z.2.1 := by
  unfold parseBodyStream
  obtain ⟨s1, e1, a1, a2, -⟩ := hi.read (by omega) 1
  have e1' : r.stream.read (some 1) = (.ok ((L.sc r.stream).take 1), s1) := e1
  rw [e1']
  simp only
  have hb' : ∀ s : LazyStream ρ, Empty ({ r with stream := s }) := fun s => ⟨hb.1, hb.2⟩
  split
  · cases queryDict (namedEnv ρ C up os mods names fuel64).C S none false with
    | error e => exact (hb' _).origins _ _ _
    | ok q => exact ⟨.inl (noForm_query _), .inl hb.outer⟩
  · obtain ⟨s2, e2, b1, b2⟩ := a1.unget (by omega) ((L.sc r.stream).take 1)
    rw [e2]
    simp only
    have hsc : L.sc s2 = L.sc r.stream := by rw [b2, a2, List.take_append_drop]
    have h := parseByType_origins (L := L) (C := C) (up := up) (os := os) (fuel64 := fuel64) (heap := heap) hl hn S
      { r with stream := s2 } (b1.toSOK (by omega)) (hb' s2)
    generalize parseByType (namedEnv ρ C up os mods names fuel64) S (builtinOps ρ os hs.length)
      { r with stream := s2 } ⟨hs, heap⟩ = y at h ⊢
    obtain ⟨x, r', w⟩ := y
    simp only [hsc] at h
    cases x with
    | error e => exact h
    | ok u =>
      simp only
      unfold finishBody
      have g := h.body
      generalize bodyCore S r' = y at g ⊢
      obtain ⟨x, r''⟩ := y
      cases x with
      | error e => exact g
      | ok b =>
        simp only
        cases decodeBody (namedEnv ρ C up os mods names fuel64).C S b with
        | error e => exact g
        | ok u => exact ⟨g.1, g.1⟩

theorem parseRequest_origin (L : Lawful ρ) (hm : MakesNew mods) (S : Settings) (hS : 1 ≤ S.maxHeaderSize) {p : ρ}
    (hI : L.Inv p) {r : Req ρ BWorld Uploaded} (hr : Req.new C S p = .ok r) (w : BWorld) :
    let z := parseRequest (namedEnv ρ C up os mods names fuel64) S r w
    Origin L C os fuel64 z.2.1 (afterHead (L.content p)) z.2.2.1.info z.2.2.2 z.2.2.1.post z.2.2.1.files := by
  have key : r.stream = LazyStream.mk' p ∧ r.bodyParsed = false ∧ r.headerParsed = false ∧ Empty r := by
    unfold Req.new Req.reInit at hr
    cases hq : queryDict C S none true with
    | error e => rw [hq] at hr; cases hr
    | ok q =>
      rw [hq] at hr
      cases hr
      exact ⟨rfl, rfl, rfl, ⟨by simp, rfl⟩, ⟨by simp, rfl⟩⟩
  obtain ⟨k1, k2, k3, k4⟩ := key
  have hc : L.sc r.stream = L.content p := by rw [k1]; rfl
  suffices h : Origins L C os fuel64 (parseRequest (namedEnv ρ C up os mods names fuel64) S r w).2.1 (afterHead (L.content p))
      (parseRequest (namedEnv ρ C up os mods names fuel64) S r w).2.2.2
      (parseRequest (namedEnv ρ C up os mods names fuel64) S r w).2.2.1 from h.2
  unfold parseRequest
  rcases parseRequestHeader_spec (L := L) (k := 0) (by omega) (namedEnv ρ C up os mods names fuel64) S hS r k3
      (by rw [k1]; exact SK.fresh L p hI) with ⟨j, s1, a1, a2, a3, a4⟩ | ⟨_, s1, a2, _⟩
  · rw [a2]
    obtain ⟨f1, -⟩ := applyHeader_frame (namedEnv ρ C up os mods names fuel64) ((L.sc r.stream).take j) S
      { r with stream := s1, headerParsed := true }
    rcases ha : applyHeader (namedEnv ρ C up os mods names fuel64) ((L.sc r.stream).take j) S
        { r with stream := s1, headerParsed := true } with ⟨x, S1, r1⟩
    rw [ha] at f1
    simp only at f1
    have hb : Empty r1 := by
      refine ⟨⟨?_, by rw [f1.files_]; exact k4.inner.2⟩, ⟨by rw [f1.post]; exact k4.outer.1, by rw [f1.files]; exact k4.outer.2⟩⟩
      rcases f1.post_ with h | h
      · rw [h]; exact k4.inner.1
      · rw [h]; simp
    cases x with
    | error e => exact hb.origins _ _ _
    | ok u =>
      simp only
      have hsc : L.sc r1.stream = (L.content p).drop (j + 4) := by rw [f1.stream, a4, hc]
      have hah : afterHead (L.content p) = (L.content p).drop (j + 4) := by
        rw [hc] at a1
        simp only [afterHead, a1]
      unfold parseRequestBody
      split
      · exact hb.origins _ _ _
      · cases hl : loadHandlers mods names with
        | error e =>
          have e1 : (namedEnv ρ C up os mods names fuel64).load w = (.error e, w) := by simp only [namedEnv, hl]
          rw [e1]
          exact hb.origins _ _ _
        | ok hs =>
          have e1 : (namedEnv ρ C up os mods names fuel64).load w =
              (.ok (builtinOps ρ os hs.length), ⟨hs, w.heap⟩) := by simp only [namedEnv, hl]
          rw [e1]
          have hb' : Empty { r1 with handlers := some (builtinOps ρ os hs.length) } := ⟨hb.1, hb.2⟩
          simp only
          split
          · exact (hb'.mark _ _).origins _ _ _
          · have := parseBodyStream_origins (L := L) (C := C) (up := up) (os := os) (fuel64 := fuel64) (heap := w.heap) hl
              (makesNew_load hm names hs hl) S1 { r1 with handlers := some (builtinOps ρ os hs.length) }
              (f1.stream ▸ a3) hb'
            simp only [hsc] at this
            rw [hah]
            exact this
  · rw [a2]
    exact Empty.origins ⟨k4.1, k4.2⟩ _ _ _

/-- **C120 for requests.**  However parsing ends, every file and every field of the form in a request comes from a part of
what was sent after the header, cut at the separator that the header announces, and says what that part says. -/
theorem C120_request (L : Lawful ρ) (hos : ∀ x, os.tempFile x ≠ .error .stopFutureHandlers) (hm : MakesNew mods)
    (S : Settings) (hS : 1 ≤ S.maxHeaderSize) {p : ρ} (hI : L.Inv p) {r : Req ρ BWorld Uploaded}
    (hr : Req.new C S p = .ok r) (w : BWorld) :
    let z := parseRequest (namedEnv ρ C up os mods names fuel64) S r w
    ((∀ q, z.2.2.1.post ≠ some (.form q)) ∧ items (z.2.2.1.files.getD []) = []) ∨
    ∃ h n m q f, z.2.2.1.info.bind (·.headers) = some h ∧
      MultiPart.create C (builtinOps ρ os n) ((h.get? b!"Content-Type").bind List.getLast?)
        ((h.get? b!"Content-Length").bind List.getLast?) = .ok m ∧
      z.2.2.1.post = some (.form q) ∧ z.2.2.1.files = some f ∧
      (∀ x ∈ items f, ∃ a d, FilePart C (b!"--" ++ m.boundary) (afterHead (L.content p)) x.1 a d ∧ Says a x.2 ∧
        x.2.size = d.length ∧ dataAt z.2.2.2.heap x.2.ref = some d) ∧
      ∀ x ∈ items q, FieldPart C z.2.1 (b!"--" ++ m.boundary) (afterHead (L.content p)) x.1 x.2 := by
  intro z
  rcases parseRequest_origin (os := os) (up := up) (names := names) (fuel64 := fuel64) L hm S hS hI hr w with
    h | ⟨hs, heap, h, m, text, input, s', q, f, h1, h2, h3, h4, h5, h6, h7, h8⟩
  · exact .inl h
  · obtain ⟨g1, g2⟩ := C120_parse (L := L) hos h1 _ text m (C33_chunk_size _ _ _ _ _ h3).2.1 input h4 h6
    rw [h5] at g1 g2
    exact .inr ⟨h, hs.length, m, q, f, h2, h3, h7, h8, g1, g2⟩

end

section
variable {ρ : Type} [Producer ρ] {L : Lawful ρ} {C : Codecs} {os : Os} {fuel64 : Nat} {hs : List Builtin} {heap : Heap}

/-- **C121.**  Every field that was sent in base64 has the bytes that the digits of its part make, and every other field
the content of its part. -/
theorem C121_field (hos : ∀ x, os.tempFile x ≠ .error .stopFutureHandlers) (hn : ∀ b ∈ hs, NewHandler b)
    (S : Settings) (text : Bool) (m : MultiPart) (hc : 1 ≤ m.chunkSize) (input : LazyStream ρ) (hi : SOK L input)
    {post : MVD PostItem} {files : MVD Uploaded} {s' : LazyStream ρ} {w' : BWorld}
    (h : m.run C S (builtinOps ρ os hs.length) fuel64 text input ⟨hs, heap⟩ = (.ok (post, files), s', w')) :
    ∀ p ∈ items post, ∃ D md content, D <:+ L.sc input ∧ PartHead C (cut (b!"--" ++ m.boundary) D) .field md content ∧
      (p.2.transferEncoding = b!"base64" → ∃ vs, B64Counts 0 content vs ∧ B64Bytes vs p.2.data) ∧
      (p.2.transferEncoding ≠ b!"base64" → p.2.data = content) := by
  intro p hp
  obtain ⟨D, md, content, d, n, name, h1, h2, -, -, -, -, -, h3, h4⟩ := (C120_parse (L := L) hos hn S text m hc input hi h).2 p hp
  refine ⟨D, md, content, h1, h2, fun ht => ?_, fun ht => ?_⟩
  · rw [if_pos (by
      cases he : transferEnc md with
      | none => rw [h3, he] at ht; exact absurd ht (by decide)
      | some v => rw [h3, he] at ht; rw [show v = b!"base64" from ht])] at h4
    exact (C121_exact _ _).1 h4
  · rw [if_neg (by intro he; rw [h3, he] at ht; exact ht rfl)] at h4
    exact h4

end

/-! ### What the header of a part says -/

namespace Spec

/-- A field of the header of a part: name, value and parameters. -/
structure PartField where
  name : Bytes
  value : Bytes
  params : List (Bytes × Bytes) := []

/-- How a field is written. -/
structure PartField.Line (f : PartField) (line : Bytes) : Prop where
  name : ∀ c ∈ f.name, Visible c ∧ c ∉ b!":;\""
  value : f.value ≠ [] ∧ ∀ c ∈ f.value, Visible c ∧ c ∉ b!";\""
  oneLine : 13 ∉ line
  text : ∃ s, MediaText f.value f.params s ∧ line = f.name ++ b!": " ++ s

/-- The field with this name (in lower case) that counts. -/
def fieldNamed (fs : List PartField) (n : Bytes) : Option PartField := fs.reverse.find? (fun f => Py.lower f.name = n)

end Spec

theorem mediaText_before (p : Bytes) {type s : Bytes} {ps : List (Bytes × Bytes)} (h : MediaText type ps s) :
    MediaText (p ++ type) ps (p ++ s) := by
  induction h with
  | nil => exact .nil
  | @snoc ps s n v t _ h1 h2 h3 ih =>
    have := MediaText.snoc ih h1 h2 h3
    simpa [List.append_assoc] using this

theorem parsePartHeader_line (C : Codecs) {f : PartField} {line : Bytes} (h : f.Line line) :
    ∃ d, parsePartHeader C line = .ok (Py.lower f.name, 32 :: Py.lower f.value, d) ∧
      ∀ n, d.get? n = (param f.params n).map PyStr.b := by
  obtain ⟨h1, ⟨h2, h3⟩, -, s, h4, rfl⟩ := h
  obtain ⟨d, e1, e2⟩ := parseHeader_media C (type := f.name ++ b!": " ++ f.value) (by
    refine ⟨?_, ?_, ?_⟩
    · simp only [List.mem_append, not_or]
      exact ⟨⟨fun hc => (h1 _ hc).2 (by decide), by decide⟩, fun hc => (h3 _ hc).2 (by decide)⟩
    · simp only [List.mem_append, not_or]
      exact ⟨⟨fun hc => (h1 _ hc).2 (by decide), by decide⟩, fun hc => (h3 _ hc).2 (by decide)⟩
    · intro c hc
      simp only [List.mem_append] at hc
      rcases hc with (hc | hc) | hc
      · exact visible_ascii (h1 c hc).1
      · revert c; decide
      · exact visible_ascii (h3 c hc).1) (mediaText_before (f.name ++ b!": ") h4)
  refine ⟨d, ?_, e2⟩
  have hst : Py.strip (f.name ++ b!": " ++ f.value) = f.name ++ b!": " ++ f.value := by
    have := strip_pad (l := []) (v := f.name ++ b!": " ++ f.value) (r := []) (by simp) (by
      intro c hc
      rcases hc with hc | hc
      · cases hn : f.name with
        | nil =>
          rw [hn] at hc
          have : c = 58 := by
            have : some (58 : UInt8) = some c := hc
            simpa using this.symm
          rw [this]; decide
        | cons x t =>
          rw [hn] at hc
          have : x = c := by simpa using hc
          exact visible_not_space (this ▸ (h1 x (by simp [hn])).1)
      · have : c ∈ f.value := by
          rw [List.getLast?_append_of_ne_nil _ h2] at hc
          exact List.mem_of_getLast? hc
        exact visible_not_space (h3 c this).1)
    simpa using this
  unfold parsePartHeader
  rw [e1, hst]
  simp only [Py.lower, List.map_append]
  have : (58 : UInt8) ∉ List.map Py.lowerByte f.name := by
    intro hm
    obtain ⟨c, hc, hcc⟩ := List.mem_map.1 hm
    have : c = 58 := lowerByte_ne (by decide) hcc
    exact (h1 c hc).2 (by rw [this]; decide)
  have := splitFirst_append (c := 58) (r := 32 :: List.map Py.lowerByte f.value) this
  have e : List.map Py.lowerByte f.name ++ List.map Py.lowerByte b!": " ++ List.map Py.lowerByte f.value =
      List.map Py.lowerByte f.name ++ 58 :: 32 :: List.map Py.lowerByte f.value := by
    simp [Py.lowerByte]
  rw [e, this]

/-- The value and the parameters of a field, as they are kept. -/
def FieldValue (o : Option PartField) (v : Option (Bytes × Dict Bytes PyStr)) : Prop :=
  match o with
  | none => v = none
  | some f => ∃ d, v = some (32 :: Py.lower f.value, d) ∧ ∀ n, d.get? n = (param f.params n).map PyStr.b

theorem partHeaders_lines (C : Codecs) : ∀ {fs : List PartField} {lines : List Bytes}, List.Forall₂ PartField.Line fs lines →
    ∀ (t : ItemType) (md : MetaData) (before : List PartField), (∀ k, FieldValue (fieldNamed before k) (md.get? k)) →
      ∃ t' md', partHeaders C lines t md = .ok (t', md') ∧ (∀ k, FieldValue (fieldNamed (before ++ fs) k) (md'.get? k)) ∧
        t' = (match fieldNamed fs b!"content-disposition" with
          | none => t
          | some f => if (param f.params b!"filename").getD [] ≠ [] then .file else .field) := by
  intro fs lines h
  induction h with
  | nil => intro t md before hb; exact ⟨t, md, rfl, by simpa using hb, rfl⟩
  | @cons f line fs lines h1 _ ih =>
    intro t md before hb
    obtain ⟨d, e1, e2⟩ := parsePartHeader_line C h1
    unfold partHeaders
    rw [e1]
    simp only
    obtain ⟨t', md', i1, i2, i3⟩ := ih (if Py.lower f.name = b!"content-disposition" then
        (if ((d.get? b!"filename").map PyStr.truthy).getD false then .file else .field) else t)
      (md.set (Py.lower f.name) (32 :: Py.lower f.value, d)) (before ++ [f]) (by
        intro k
        unfold fieldNamed
        simp only [List.reverse_append, List.reverse_cons, List.reverse_nil, List.nil_append, List.singleton_append, List.find?_cons]
        by_cases hk : Py.lower f.name = k
        · simp only [hk, decide_true]
          exact ⟨d, by rw [Dict.get?_set, if_pos rfl], e2⟩
        · simp only [hk, decide_false]
          rw [Dict.get?_set, if_neg hk]
          exact hb k)
    refine ⟨t', md', i1, by simpa using i2, ?_⟩
    rw [i3]
    unfold fieldNamed
    simp only [List.reverse_cons, List.find?_append, List.find?_cons, List.find?_nil]
    cases hf : List.find? (fun f => decide (Py.lower f.name = b!"content-disposition")) fs.reverse with
    | some g => simp
    | none =>
      simp only [Option.none_or]
      by_cases hk : Py.lower f.name = b!"content-disposition"
      · simp only [hk, decide_true, if_true, e2]
        cases param f.params b!"filename" with
        | none => simp
        | some v => cases v <;> simp [PyStr.truthy]
      · simp [hk]

theorem ustrip_value {v : Bytes} (h : ∀ c ∈ v, Visible c) : Py.ustrip (32 :: Py.lower v) = Py.lower v := by
  have key : ∀ c ∈ Py.lower v, Py.isUSpace c = false := by
    intro c hc
    obtain ⟨x, hx, rfl⟩ := List.mem_map.1 hc
    have := forall_u8 (fun c => decide (33 ≤ c ∧ c ≤ 126 → Py.isUSpace (Py.lowerByte c) = false)) (by decide +kernel) x
    simp only [decide_eq_true_eq] at this
    exact this (h x hx)
  have e : Py.ustrip (32 :: Py.lower v) = Py.ustrip (Py.lower v) := by
    simp [Py.ustrip, Py.stripBy, List.dropWhile, show Py.isUSpace 32 = true by decide]
  rw [e]
  exact stripBy_id (fun c hc => key c (List.mem_of_head? hc)) (fun c hc => key c (List.mem_of_getLast? hc))

theorem fieldNamed_mem {fs : List PartField} {n : Bytes} {f : PartField} (h : fieldNamed fs n = some f) : f ∈ fs := by
  have := List.mem_of_find?_eq_some h
  simpa using this

theorem forall₂_left {α β : Type} {R : α → β → Prop} {l : List α} {m : List β} (h : List.Forall₂ R l m) :
    ∀ a ∈ l, ∃ b, R a b := by
  induction h with
  | nil => simp
  | cons h _ ih =>
    intro a ha
    rcases List.mem_cons.1 ha with rfl | ha
    · exact ⟨_, h⟩
    · exact ih a ha

theorem lower_digits {s : Bytes} {n : Nat} (h : Numeral 10 DecDigit s n) : Py.lower s = s := by
  have h1 := (parseDecInt_iff s n).2 h
  unfold parseDecInt at h1
  split at h1
  case isFalse => cases h1
  rename_i hs
  have hd : ∀ c ∈ s, Py.isDigit c = true := by
    have := hs.2
    simpa [List.all_eq_true] using this
  unfold Py.lower
  conv_rhs => rw [← List.map_id s]
  refine List.map_congr_left fun c hc => ?_
  have := forall_u8 (fun c => !Py.isDigit c || decide (Py.lowerByte c = c)) (by decide +kernel) c
  simpa [hd c hc] using this

/-- **C120.**  The header of a part that has a `Content-Disposition`, with each field written as a client writes it.
The part is a file if the disposition names a non-empty file and a field otherwise; the name is the one that the
disposition gives.  What is said of the file are the value of `Content-Type` in small letters, the parameters of
`Content-Type`, the value of `Content-Transfer-Encoding` in small letters, and the number in `Content-Length`; of fields
with the same name the last one counts. -/
theorem C120_written (C : Codecs) {fs : List PartField} {lines : List Bytes} (hl : List.Forall₂ PartField.Line fs lines)
    (data : Bytes) (hs : (lines.flatMap (fun l => b!"\r\n" ++ l)).length + 4 ≤ 1024) {cd : PartField}
    (hcd : fieldNamed fs b!"content-disposition" = some cd) {t : ItemType} {md : MetaData} {content : Bytes}
    (h : PartHead C (lines.flatMap (fun l => b!"\r\n" ++ l) ++ b!"\r\n\r\n" ++ data) t md content) :
    content = data ∧
    t = (if (param cd.params b!"filename").getD [] ≠ [] then .file else .field) ∧
    (partName md).map (·.2) = (param cd.params b!"name").map PyStr.b ∧
    (∀ d n, partName md = some (d, n) → ∀ k, d.get? k = (param cd.params k).map PyStr.b) ∧
    ∀ name fileName a, Describes md name fileName a →
      a.contentType = ((fieldNamed fs b!"content-type").map (fun f => Py.lower f.value)).getD [] ∧
      (∀ k, a.extra.get? k = (fieldNamed fs b!"content-type").bind (fun f => (param f.params k).map PyStr.b)) ∧
      a.charset = (fieldNamed fs b!"content-type").bind (fun f => (param f.params b!"charset").map PyStr.b) ∧
      a.transferEncoding = (fieldNamed fs b!"content-transfer-encoding").map (fun f => Py.lower f.value) ∧
      (fieldNamed fs b!"content-length" = none → a.contentLength = none) ∧
      ∀ f n, fieldNamed fs b!"content-length" = some f → Numeral 10 DecDigit f.value n → a.contentLength = some (n : Int) := by
  have hok : ∀ l ∈ lines, l ≠ [] ∧ 13 ∉ l := by
    intro l hm
    obtain ⟨f, hf⟩ := forall₂_left hl.flip l hm
    refine ⟨?_, hf.oneLine⟩
    obtain ⟨s, -, rfl⟩ := hf.text
    simp
  have hvis : ∀ {k f}, fieldNamed fs k = some f → ∀ c ∈ f.value, Visible c := by
    intro k f hf c hc
    obtain ⟨l, hl⟩ := forall₂_left hl f (fieldNamed_mem hf)
    exact (hl.value.2 c hc).1
  obtain ⟨t0, md0, e1, e2, e3⟩ := partHeaders_lines C hl .raw [] [] (by intro k; rfl)
  simp only [List.nil_append] at e2
  rw [hcd] at e3
  simp only at e3
  generalize hH : lines.flatMap (fun l => b!"\r\n" ++ l) = H at *
  have hf : Py.find b!"\r\n\r\n" ((H ++ b!"\r\n\r\n" ++ data).take 1024) = some H.length := by
    rw [List.take_append, List.take_of_length_le (by simp; omega), ← hH]
    exact find_head _ _ hok
  have htk : (H ++ b!"\r\n\r\n" ++ data).take H.length = H := by simp
  have e0 : parsePartHeader C [] = .error .valueError := rfl
  obtain ⟨rfl, rfl, rfl⟩ := h.inv hf (t0 := t0) (md0 := md0) (by
    rw [htk, ← hH, splitPair_head _ (fun l hm => (hok l hm).2)]
    simp only [partHeaders, e0, Exc.isValueError, if_true]
    exact e1) (by rw [e3]; split <;> simp)
  refine ⟨?_, e3, ?_, ?_, ?_⟩
  · rw [show H.length + 4 = (H ++ b!"\r\n\r\n").length by simp]
    simp only [List.drop_left]
  · have := e2 b!"content-disposition"
    rw [hcd] at this
    obtain ⟨d, h1, h2⟩ := this
    simp only [partName, h1, Option.bind_some, h2]
    cases param cd.params b!"name" <;> rfl
  · intro d n hd k
    have := e2 b!"content-disposition"
    rw [hcd] at this
    obtain ⟨d', h1, h2⟩ := this
    simp only [partName, h1, Option.bind_some, h2, Option.map_map] at hd
    cases hp : param cd.params b!"name" with
    | none => rw [hp] at hd; cases hd
    | some v =>
      rw [hp] at hd
      simp only [Option.map_some, Option.some.injEq, Function.comp, Prod.mk.injEq] at hd
      rw [← hd.1]; exact h2 k
  · intro name fileName a ha
    have hct : a.contentType = ((fieldNamed fs b!"content-type").map (fun f => Py.lower f.value)).getD [] ∧
      ∀ k, a.extra.get? k = (fieldNamed fs b!"content-type").bind (fun f => (param f.params k).map PyStr.b) := by
      rw [ha.contentType, ha.extra]
      have := e2 b!"content-type"
      cases hc : fieldNamed fs b!"content-type" with
      | none =>
        rw [hc] at this
        have : md.get? b!"content-type" = none := this
        rw [this]
        exact ⟨rfl, fun _ => rfl⟩
      | some f =>
        rw [hc] at this
        obtain ⟨d, h1, h2⟩ := this
        rw [h1]
        exact ⟨ustrip_value (hvis hc), h2⟩
    refine ⟨hct.1, hct.2, by rw [ha.charset]; exact hct.2 _, ?_, ?_, ?_⟩
    · rw [ha.transferEncoding, transferEnc]
      have := e2 b!"content-transfer-encoding"
      cases hc : fieldNamed fs b!"content-transfer-encoding" with
      | none =>
        rw [hc] at this
        have : md.get? b!"content-transfer-encoding" = none := this
        rw [this]; rfl
      | some f =>
        rw [hc] at this
        obtain ⟨d, h1, -⟩ := this
        rw [h1]
        simp only [Option.map_some, ustrip_value (hvis hc)]
    · intro hc
      have := e2 b!"content-length"
      rw [hc] at this
      have : md.get? b!"content-length" = none := this
      rw [ha.contentLength, this]; rfl
    · intro f n hc hn
      have := e2 b!"content-length"
      rw [hc] at this
      obtain ⟨d, h1, -⟩ := this
      rw [ha.contentLength, h1]
      simp only [Option.bind_some, parseIntU, ustrip_value (hvis hc)]
      rw [show Py.lower f.value = f.value from ?_]
      · exact parseInt_digits hn
      · exact lower_digits hn

/-! ### Examples -/

/-- A request with a field and a file that says much of itself. -/
def toldRequest : Bytes :=
  b!"POST http://h/p?q HTTP/1.1\r\nContent-Type: multipart/form-data; boundary=B\r\nContent-Length: 50\r\n\r\n" ++
  b!"--B\r\nContent-Disposition: form-data; name=\"n\"\r\n\r\nv\r\n" ++
  b!"--B\r\nContent-Disposition: form-data; name=\"a\"; filename=\"f.txt\"\r\nContent-Type: Text/Plain; charset=utf-8; x=\"Y z\"\r\nContent-Transfer-Encoding: BASE64\r\nContent-Length: 4\r\n\r\nYWJj\r\n--B--"

def toldReq : Req Source BWorld Uploaded :=
  (Req.new pyCodecs {} ⟨[toldRequest]⟩).toOption.getD { stream := LazyStream.mk' ⟨[]⟩ }

example := C120_request (C := pyCodecs) (up := []) (os := goodOs) (names := defaultHandlers) (fuel64 := 9) Source.lawful
  (by simp [goodOs]) sampleModules_new {} (by decide) (p := ⟨[toldRequest]⟩) trivial
  (r := toldReq) rfl ⟨[], []⟩

example :
    let z := parseRequest (namedEnv Source pyCodecs [] goodOs sampleModules defaultHandlers 9) {} toldReq ⟨[], []⟩
    z.1.toOption = some () ∧
    (items (z.2.2.1.files.getD [])).map (fun p => (p.1, p.2.name, p.2.size)) = [(b!"a", b!"f.txt", 3)] ∧
    (filesIn z.2.2.1.files).map (fun f => (f.args.contentType, f.args.charset, f.args.transferEncoding, f.args.contentLength)) =
      [(b!"text/plain", some (.b b!"utf-8"), some b!"base64", some 4)] ∧
    (filesIn z.2.2.1.files).map (fun f => (f.args.extra.get? b!"x", dataAt z.2.2.2.heap f.ref)) =
      [(some (.b b!"Y z"), some b!"abc")] := by
  decide +kernel

/-- The header of that file. -/
def toldFields : List PartField :=
  [⟨b!"Content-Disposition", b!"form-data", [(b!"name", b!"a"), (b!"filename", b!"f.txt")]⟩,
   ⟨b!"Content-Type", b!"Text/Plain", [(b!"charset", b!"utf-8"), (b!"x", b!"Y z")]⟩,
   ⟨b!"Content-Transfer-Encoding", b!"BASE64", []⟩, ⟨b!"Content-Length", b!"4", []⟩]

def toldLines : List Bytes :=
  [b!"Content-Disposition: form-data; name=\"a\"; filename=\"f.txt\"", b!"Content-Type: Text/Plain; charset=utf-8; x=\"Y z\"",
   b!"Content-Transfer-Encoding: BASE64", b!"Content-Length: 4"]

theorem told_lines : List.Forall₂ PartField.Line toldFields toldLines := by
  refine .cons ⟨by unfold Visible; decide, by unfold Visible; decide, by decide, _, ?_, rfl⟩
    (.cons ⟨by unfold Visible; decide, by unfold Visible; decide, by decide, _, ?_, rfl⟩
    (.cons ⟨by unfold Visible; decide, by unfold Visible; decide, by decide, _, .nil, rfl⟩
    (.cons ⟨by unfold Visible; decide, by unfold Visible; decide, by decide, _, .nil, rfl⟩ .nil)))
  · exact .snoc (ps := [(b!"name", b!"a")]) (s := b!"form-data; name=\"a\"") (t := b!"filename=\"f.txt\"")
      (.snoc (ps := []) (s := b!"form-data") (t := b!"name=\"a\"") .nil (by unfold Visible; decide) (by decide) (.inr rfl))
      (by unfold Visible; decide) (by decide) (.inr rfl)
  · exact .snoc (ps := [(b!"charset", b!"utf-8")]) (s := b!"Text/Plain; charset=utf-8") (t := b!"x=\"Y z\"")
      (.snoc (ps := []) (s := b!"Text/Plain") (t := b!"charset=utf-8") .nil (by unfold Visible; decide) (by decide)
        (.inl ⟨by unfold Visible; decide, rfl⟩))
      (by unfold Visible; decide) (by decide) (.inr rfl)

example : ∃ md content, PartHead pyCodecs (toldLines.flatMap (fun l => b!"\r\n" ++ l) ++ b!"\r\n\r\n" ++ b!"YWJj") .file md content :=
  ⟨_, _, .header (i := 164) (by decide +kernel) rfl (by decide)⟩

example (md : MetaData) (content : Bytes) (t : ItemType)
    (h : PartHead pyCodecs (toldLines.flatMap (fun l => b!"\r\n" ++ l) ++ b!"\r\n\r\n" ++ b!"YWJj") t md content) :
    content = b!"YWJj" ∧ t = .file ∧
      ∀ name fileName a, Describes md name fileName a → a.contentType = b!"text/plain" ∧ a.charset = some (.b b!"utf-8") ∧
        a.transferEncoding = some b!"base64" ∧ a.contentLength = some 4 := by
  obtain ⟨h1, h2, -, -, h3⟩ := C120_written pyCodecs told_lines b!"YWJj" (by decide +kernel) (cd := toldFields.head (by decide)) (by rfl) h
  refine ⟨h1, h2, fun name fn a ha => ?_⟩
  obtain ⟨g1, -, g2, g3, -, g4⟩ := h3 name fn a ha
  exact ⟨g1, g2, g3, g4 ⟨b!"Content-Length", b!"4", []⟩ 4 rfl ((parseDecInt_iff _ _).1 (by decide +kernel))⟩

/-- A field in base64, with a `=` in the wrong place and a space. -/
def oddBody : Bytes := b!"--B\r\nContent-Disposition: form-data; name=a\r\nContent-Transfer-Encoding: base64\r\n\r\nYQ=B j\r\n--B--"

/-- What the parser makes of it. -/
def oddResult := (⟨b!"B", 7, 100⟩ : MultiPart).run latinCodecs {} (builtinOps Source goodOs 1) 9 false
    (LazyStream.mk' (⟨[oddBody]⟩ : Source)) ⟨[.memory {}], []⟩

example : (oddResult.1.toOption.map fun r => (items r.1).map (fun p => (p.1, p.2.data))) = some [(b!"a", [97, 0, 99])] := by
  decide +kernel

example {post : MVD PostItem} {files : MVD Uploaded} {s' : LazyStream Source} {w' : BWorld}
    (h : oddResult = (.ok (post, files), s', w')) :=
  C121_field (L := Source.lawful) (hs := [.memory {}]) (by simp [goodOs]) (by simp [NewHandler]) {} false ⟨b!"B", 7, 100⟩ (by decide)
    (LazyStream.mk' ⟨[oddBody]⟩) (SOK.fresh _) h

end Verif
