import Verif.Proofs.Tracks
import Verif.Props.Form
import Verif.Props.RequestMore
import Verif.Props.Load
/-!
# Requests do not touch the files of other requests (C118)
-/

namespace Verif
open Spec

def MemoryH.refs (m : MemoryH) : List Nat := m.file.toList
def TempH.refs (t : TempH) : List Nat := (t.file.map Uploaded.ref).toList

/-- The addresses of all files that a handler refers to. -/
def Builtin.refs : Builtin → List Nat
  | .memory m => m.refs
  | .temp t => t.refs
  | .conv c => c.memory.refs ++ c.temp.refs

def MemoryH.cur (m : MemoryH) : List Nat := if m.activated = some true then m.refs else []

/-- The address of the file that the handler would return. -/
def Builtin.cur : Builtin → List Nat
  | .memory m => m.cur
  | .temp t => t.refs
  | .conv c => if c.switched then c.temp.refs else c.memory.cur

/-- The handler raises `StopFutureHandlers`. -/
def Builtin.Stops : Builtin → Prop
  | .memory m => m.activated = some true
  | .temp _ => False
  | .conv c => c.switched = false ∧ c.memory.activated = some true

/-- An operation touches no file but those of the handler, and the new ones. -/
structure Moves (b : Builtin) (heap : Heap) (b' : Builtin) (heap' : Heap) : Prop where
  len : heap.length ≤ heap'.length
  kept : ∀ r, r < heap.length → r ∉ b.refs → heap'[r]? = heap[r]?
  refs : ∀ r ∈ b'.refs, r ∈ b.refs ∨ (heap.length ≤ r ∧ r < heap'.length)
  stops : b'.Stops → b.Stops

theorem MemoryH.cur_refs (m : MemoryH) : ∀ r ∈ m.cur, r ∈ m.refs := by
  intro r hr
  unfold MemoryH.cur at hr
  split at hr
  · exact hr
  · cases hr

theorem Builtin.cur_refs (b : Builtin) : ∀ r ∈ b.cur, r ∈ b.refs := by
  intro r hr
  cases b with
  | memory m => exact m.cur_refs r hr
  | temp => exact hr
  | conv c =>
    simp only [Builtin.cur] at hr
    simp only [Builtin.refs, List.mem_append]
    split at hr
    · exact .inr hr
    · exact .inl (c.memory.cur_refs r hr)

/-- `modify` changes one file at most. -/
theorem Heap.modify_kept (h : Heap) (r : Nat) (f : FileObj → Except Exc FileObj) :
    (h.modify r f).2.length = h.length ∧ ∀ x, x ≠ r → (h.modify r f).2[x]? = h[x]? := by
  unfold Heap.modify
  split
  · exact ⟨rfl, fun _ _ => rfl⟩
  · split
    · exact ⟨rfl, fun _ _ => rfl⟩
    · exact ⟨by simp, fun x hx => by simp [List.getElem?_set_ne (Ne.symm hx)]⟩

/-- The heap grows, and of the old files only those in `own` may change. -/
structure Only (own : List Nat) (heap heap' : Heap) : Prop where
  len : heap.length ≤ heap'.length
  kept : ∀ r, r < heap.length → r ∉ own → heap'[r]? = heap[r]?

theorem Only.refl (own : List Nat) (heap : Heap) : Only own heap heap := ⟨Nat.le_refl _, fun _ _ _ => rfl⟩

theorem Only.append (own : List Nat) (heap : Heap) (o : FileObj) : Only own heap (heap ++ [o]) :=
  ⟨by simp, fun r h _ => List.getElem?_append_left h⟩

theorem Only.modify (own : List Nat) (heap : Heap) (r : Nat) (h : r ∈ own) (f : FileObj → Except Exc FileObj) :
    Only own heap (heap.modify r f).2 := by
  obtain ⟨h1, h2⟩ := heap.modify_kept r f
  exact ⟨by omega, fun x _ hx => h2 x (by rintro rfl; exact hx h)⟩

theorem Only.set (own : List Nat) (heap : Heap) (r : Nat) (h : r ∈ own) (o : FileObj) : Only own heap (heap.set r o) :=
  ⟨by simp, fun x _ hx => List.getElem?_set_ne (by rintro rfl; exact hx h)⟩

theorem Only.trans {own : List Nat} {a b c : Heap} (h1 : Only own a b) (h2 : Only own b c) : Only own a c :=
  ⟨Nat.le_trans h1.len h2.len, fun r h hr => (h2.kept r (Nat.lt_of_lt_of_le h h1.len) hr).trans (h1.kept r h hr)⟩

/-- Writing to a file that is new. -/
theorem Only.modify_new (own : List Nat) (a b : Heap) (h1 : Only own a b) (r : Nat) (h : a.length ≤ r)
    (f : FileObj → Except Exc FileObj) : Only own a (b.modify r f).2 := by
  obtain ⟨e1, e2⟩ := b.modify_kept r f
  exact ⟨by rw [e1]; exact h1.len, fun x hx hn => (e2 x (by omega)).trans (h1.kept x hx hn)⟩

theorem Only.mono {own own' : List Nat} {a b : Heap} (h : Only own a b) (hs : ∀ r ∈ own, r ∈ own') : Only own' a b :=
  ⟨h.len, fun r hr hn => h.kept r hr fun h => hn (hs r h)⟩

theorem MemoryH.newFile_only (m : MemoryH) (a : NewFileArgs) (heap : Heap) :
    Only [] heap (m.newFile a heap).2.2 ∧ (m.newFile a heap).2.1.activated = m.activated ∧
    (∀ r ∈ (m.newFile a heap).2.1.refs, r ∈ m.refs ∨ (heap.length ≤ r ∧ r < (m.newFile a heap).2.2.length)) ∧
    ((m.newFile a heap).1 = .ok () → m.activated = some false) ∧
    ((m.newFile a heap).1 = .ok () ∨ (m.newFile a heap).1 = .error .stopFutureHandlers →
      ∀ r ∈ (m.newFile a heap).2.1.cur, heap.length ≤ r) ∧
    ((m.newFile a heap).1 = .error .stopFutureHandlers → m.activated = some true) := by
  obtain ⟨args, act, file⟩ := m
  rcases act with _ | _ | _
  · exact ⟨.refl _ _, rfl, fun r hr => .inl hr, by simp [MemoryH.newFile], by simp [MemoryH.newFile], by simp [MemoryH.newFile]⟩
  · exact ⟨.refl _ _, rfl, fun r hr => .inl hr, by simp, by simp [MemoryH.newFile, MemoryH.cur],
      by simp [MemoryH.newFile]⟩
  · exact ⟨.append _ _ _, rfl, by simp [MemoryH.newFile, MemoryH.refs], by simp [MemoryH.newFile],
      by simp [MemoryH.newFile, MemoryH.cur, MemoryH.refs], fun _ => rfl⟩

theorem TempH.newFile_only (os : Os) (t : TempH) (a : NewFileArgs) (heap : Heap) :
    Only [] heap (t.newFile os a heap).2.2 ∧
    (∀ r ∈ (t.newFile os a heap).2.1.refs, r ∈ t.refs ∨ (heap.length ≤ r ∧ r < (t.newFile os a heap).2.2.length)) ∧
    ((t.newFile os a heap).1 = .ok () → ∀ r ∈ (t.newFile os a heap).2.1.refs, heap.length ≤ r) ∧
    ((t.newFile os a heap).1 = .error .stopFutureHandlers → ∃ x, os.tempFile x = .error .stopFutureHandlers) := by
  unfold TempH.newFile
  simp only
  split
  · exact ⟨.refl _ _, fun r hr => .inl hr, by simp, by simp⟩
  · split
    · rename_i e he
      exact ⟨.refl _ _, fun r hr => .inl hr, by simp, fun h => ⟨_, by rw [he]; simpa using h⟩⟩
    · exact ⟨.append _ _ _, by simp [TempH.refs], by simp [TempH.refs], by simp⟩

theorem MemoryH.receive_only (m : MemoryH) (d : Bytes) (heap : Heap) :
    Only m.refs heap (m.receive d heap).2 := by
  unfold MemoryH.receive
  split
  · exact .refl _ _
  · exact .refl _ _
  · split
    · exact .refl _ _
    · rename_i r hr
      have := Only.modify m.refs heap r (by simp [MemoryH.refs, hr]) (·.write d)
      split <;> (rename_i h; rw [h] at this; exact this)

theorem TempH.receive_only (t : TempH) (d : Bytes) (heap : Heap) :
    Only t.refs heap (t.receive d heap).2 := by
  unfold TempH.receive
  split
  · exact .refl _ _
  · rename_i f hr
    have := Only.modify t.refs heap f.ref (by simp [TempH.refs, hr]) (·.write d)
    split <;> (rename_i h; rw [h] at this; exact this)

theorem MemoryH.fileComplete_only (m : MemoryH) (n : Nat) (heap : Heap) :
    Only m.refs heap (m.fileComplete n heap).2 ∧
    ∀ f, (m.fileComplete n heap).1 = .ok (some f) → f.ref ∈ m.cur := by
  unfold MemoryH.fileComplete
  split
  · exact ⟨.refl _ _, by simp⟩
  · exact ⟨.refl _ _, by simp⟩
  · rename_i ha
    split
    · rename_i r args hr _
      have := Only.modify m.refs heap r (by simp [MemoryH.refs, hr]) (·.rewind)
      split
      · rename_i h; rw [h] at this; exact ⟨this, by simp⟩
      · rename_i h; rw [h] at this
        refine ⟨this, ?_⟩
        intro f hf
        simp only [Except.ok.injEq, Option.some.injEq] at hf
        subst hf
        simp [MemoryH.cur, ha, MemoryH.refs, hr]
    · exact ⟨.refl _ _, by simp⟩

theorem TempH.fileComplete_only (t : TempH) (n : Nat) (heap : Heap) :
    Only t.refs heap (t.fileComplete n heap).2.2 ∧ (t.fileComplete n heap).2.1.refs = t.refs ∧
    ∀ f, (t.fileComplete n heap).1 = .ok (some f) → f.ref ∈ t.refs := by
  unfold TempH.fileComplete
  split
  · exact ⟨.refl _ _, rfl, by simp⟩
  · rename_i g hg
    have := Only.modify t.refs heap g.ref (by simp [TempH.refs, hg]) (·.rewind)
    split
    · rename_i h; rw [h] at this; exact ⟨this, rfl, by simp⟩
    · rename_i h; rw [h] at this
      refine ⟨this, by simp [TempH.refs, hg], ?_⟩
      intro f hf
      simp only [Except.ok.injEq, Option.some.injEq] at hf
      subst hf
      simp [TempH.refs, hg]

/-- The switch to a temporary file. -/
theorem ConvH.switch_only (os : Os) (c : ConvH) (heap : Heap) :
    Only c.memory.refs heap (c.switch os heap).2.2 ∧ (c.switch os heap).2.1.memory = c.memory ∧
    ((c.switch os heap).1 ≠ .ok () → (c.switch os heap).2.1 = c) ∧
    ((c.switch os heap).1 = .ok () → (c.switch os heap).2.1.switched = true ∧ c.memory.refs ≠ [] ∧
      ∀ r ∈ (c.switch os heap).2.1.temp.refs, heap.length ≤ r ∧ r < (c.switch os heap).2.2.length) := by
  unfold ConvH.switch
  obtain ⟨h1, h2⟩ := c.memory.fileComplete_only c.received heap
  generalize c.memory.fileComplete c.received heap = z at *
  rcases z with ⟨(e | (_ | f)), heap1⟩
  · exact ⟨h1, rfl, fun _ => rfl, by simp⟩
  · exact ⟨h1, rfl, fun _ => rfl, by simp⟩
  have hf := c.memory.cur_refs _ (h2 f rfl)
  simp only at h1 ⊢
  split
  · exact ⟨h1, rfl, fun _ => rfl, by simp⟩
  rename_i o ho
  split
  · exact ⟨h1, rfl, fun _ => rfl, by simp⟩
  rename_i content o' _
  have h3 : Only c.memory.refs heap (heap1.set f.ref o') := h1.trans (.set _ _ _ hf _)
  obtain ⟨n1, n2, n3, n4⟩ := TempH.newFile_only os { hasSettings := true } { f.args with contentLength := some 0 } (heap1.set f.ref o')
  generalize TempH.newFile os { hasSettings := true } { f.args with contentLength := some 0 } (heap1.set f.ref o') = z at *
  rcases z with ⟨(e | _), t, heap2⟩
  · exact ⟨h3.trans (n1.mono (by simp)), rfl, fun _ => rfl, by simp⟩
  simp only at n1 n2 n3 ⊢
  have h4 := h3.trans (n1.mono (own' := c.memory.refs) (by simp))
  have ht : ∀ r ∈ t.refs, heap.length ≤ r ∧ r < heap2.length := by
    intro r hr
    rcases n2 r hr with h | h
    · simp [TempH.refs] at h
    · exact ⟨Nat.le_trans h3.len h.1, h.2⟩
  have h5 : Only c.memory.refs heap (t.receive content heap2).2 ∧ (t.receive content heap2).2.length = heap2.length := by
    unfold TempH.receive
    cases hfile : t.file with
    | none => exact ⟨h4, rfl⟩
    | some g =>
      simp only
      have := (ht g.ref (by simp [TempH.refs, hfile])).1
      have hm := Only.modify_new c.memory.refs heap heap2 h4 g.ref this (·.write content)
      have hlen := (heap2.modify_kept g.ref (·.write content)).1
      generalize heap2.modify g.ref (·.write content) = z at *
      rcases z with ⟨(e | _), h⟩ <;> exact ⟨hm, hlen⟩
  generalize t.receive content heap2 = z at *
  rcases z with ⟨(e | _), heap3⟩
  · exact ⟨h5.1, rfl, fun _ => rfl, by simp⟩
  · refine ⟨h5.1, rfl, by simp, fun _ => ⟨rfl, (by intro h; rw [h] at hf; cases hf), ?_⟩⟩
    intro r hr
    have := ht r hr
    exact ⟨this.1, by rw [h5.2]; exact this.2⟩

/-- `new_file`. -/
theorem newFile_moves (os : Os) (hos : ∀ x, os.tempFile x ≠ .error .stopFutureHandlers) (a : NewFileArgs) (b : Builtin) (heap : Heap) :
    Moves b heap (b.newFile os a heap).2.1 (b.newFile os a heap).2.2 ∧
    ((b.newFile os a heap).1 = .ok () → ¬ (b.newFile os a heap).2.1.Stops) ∧
    ((b.newFile os a heap).1 = .ok () ∨ (b.newFile os a heap).1 = .error .stopFutureHandlers →
      ∀ r ∈ (b.newFile os a heap).2.1.cur, heap.length ≤ r) ∧
    ((b.newFile os a heap).1 = .error .stopFutureHandlers → b.Stops) := by
  cases b with
  | memory m =>
    obtain ⟨h1, h2, h3, h4, h5, h6⟩ := m.newFile_only a heap
    exact ⟨⟨h1.len, fun r hr _ => h1.kept r hr (by simp), h3, fun h => h2.symm.trans h⟩,
      fun h hs => by simp [Builtin.newFile, Builtin.Stops, h2, h4 h] at hs, h5, h6⟩
  | temp t =>
    obtain ⟨h1, h2, h3, h4⟩ := t.newFile_only os a heap
    refine ⟨⟨h1.len, fun r hr _ => h1.kept r hr (by simp), h2, fun h => h⟩, fun _ h => h, ?_, ?_⟩
    · rintro (h | h)
      · exact h3 h
      · obtain ⟨x, hx⟩ := h4 h
        exact absurd hx (hos x)
    · intro h
      obtain ⟨x, hx⟩ := h4 h
      exact absurd hx (hos x)
  | conv c =>
    simp only [Builtin.newFile, ConvH.newFile]
    by_cases hsw : c.switched = true
    · rw [if_pos hsw]
      obtain ⟨h1, h2, h3, h4⟩ := c.temp.newFile_only os a heap
      refine ⟨⟨h1.len, fun r hr _ => h1.kept r hr (by simp), ?_, ?_⟩, ?_, ?_, ?_⟩
      · intro r hr
        simp only [Builtin.refs, List.mem_append] at hr ⊢
        rcases hr with hr | hr
        · exact .inl (.inl hr)
        · rcases h2 r hr with h | h
          · exact .inl (.inr h)
          · exact .inr h
      · simp [Builtin.Stops, hsw]
      · simp [Builtin.Stops, hsw]
      · simp only [Builtin.cur, hsw, if_true]
        rintro (h | h)
        · exact h3 h
        · obtain ⟨x, hx⟩ := h4 h
          exact absurd hx (hos x)
      · intro h
        obtain ⟨x, hx⟩ := h4 h
        exact absurd hx (hos x)
    · rw [if_neg hsw]
      obtain ⟨h1, h2, h3, h4, h5, h6⟩ := c.memory.newFile_only a heap
      refine ⟨⟨h1.len, fun r hr _ => h1.kept r hr (by simp), ?_, ?_⟩, ?_, ?_, ?_⟩
      · intro r hr
        simp only [Builtin.refs, List.mem_append] at hr ⊢
        rcases hr with hr | hr
        · rcases h3 r hr with h | h
          · exact .inl (.inl h)
          · exact .inr h
        · exact .inl (.inr hr)
      · simp only [Builtin.Stops, h2]; exact fun h => h
      · intro h hs
        simp [Builtin.Stops, h2, h4 h] at hs
      · simpa only [Builtin.cur, if_neg hsw] using h5
      · exact fun h => ⟨by simpa using hsw, h6 h⟩

theorem receive_moves (os : Os) (d : Bytes) (b : Builtin) (heap : Heap) :
    Moves b heap (b.receive os d heap).2.1 (b.receive os d heap).2.2 ∧
    (∀ r ∈ (b.receive os d heap).2.1.cur, r ∈ b.cur ∨ heap.length ≤ r) ∧
    (b.refs = [] → (b.receive os d heap).2.1.refs = []) := by
  cases b with
  | memory m =>
    have h := m.receive_only d heap
    exact ⟨⟨h.len, h.kept, fun r hr => .inl hr, fun h => h⟩, fun r hr => .inl hr, fun h => h⟩
  | temp t =>
    have h := t.receive_only d heap
    exact ⟨⟨h.len, h.kept, fun r hr => .inl hr, fun h => h⟩, fun r hr => .inl hr, fun h => h⟩
  | conv c =>
    simp only [Builtin.receive, ConvH.receive]
    cases hm : c.fileMax with
    | none => exact ⟨⟨Nat.le_refl _, fun _ _ _ => rfl, fun r hr => .inl hr, fun h => h⟩, fun r hr => .inl hr, fun h => h⟩
    | some limit =>
      simp only
      -- what holds after the possible switch
      have key : ∀ x c1 heap1, (if c.switched = false ∧ (c.received : Int) + d.length > limit then c.switch os heap
            else (.ok (), c, heap) : Res (ConvH × Heap) Unit) = (x, c1, heap1) →
          Moves (.conv c) heap (.conv c1) heap1 ∧ (∀ r ∈ (Builtin.conv c1).cur, r ∈ (Builtin.conv c).cur ∨ heap.length ≤ r) ∧
          ((Builtin.conv c).refs = [] → (Builtin.conv c1).refs = []) := by
        intro x c1 heap1 he
        by_cases hs : c.switched = false ∧ (c.received : Int) + d.length > limit
        · rw [if_pos hs] at he
          obtain ⟨s1, s2, s3, s4⟩ := c.switch_only os heap
          rw [he] at s1 s2 s3 s4
          simp only at s1 s2 s3 s4
          have s1' : Only (Builtin.conv c).refs heap heap1 := s1.mono (by simp [Builtin.refs]; tauto)
          by_cases hx : x = .ok ()
          · obtain ⟨t1, t2, t3⟩ := s4 hx
            refine ⟨⟨s1'.len, s1'.kept, ?_, by simp [Builtin.Stops, t1]⟩, ?_, ?_⟩
            · intro r hr
              simp only [Builtin.refs, List.mem_append, s2] at hr ⊢
              rcases hr with hr | hr
              · exact .inl (.inl hr)
              · exact .inr (t3 r hr)
            · intro r hr
              simp only [Builtin.cur, t1, if_true] at hr
              exact .inr (t3 r hr).1
            · intro h
              simp only [Builtin.refs, List.append_eq_nil_iff] at h
              exact absurd h.1 t2
          · have := s3 hx
            subst this
            exact ⟨⟨s1'.len, s1'.kept, fun r hr => .inl hr, fun h => h⟩, fun r hr => .inl hr, fun h => h⟩
        · rw [if_neg hs] at he
          cases he
          exact ⟨⟨Nat.le_refl _, fun _ _ _ => rfl, fun r hr => .inl hr, fun h => h⟩, fun r hr => .inl hr, fun h => h⟩
      generalize hz : (if c.switched = false ∧ (c.received : Int) + d.length > limit then c.switch os heap
            else (.ok (), c, heap) : Res (ConvH × Heap) Unit) = z at *
      rcases z with ⟨(e | _), c1, heap1⟩
      · exact key _ _ _ rfl
      · obtain ⟨k1, k2, k3⟩ := key _ _ _ rfl
        simp only
        have hr : ∀ x heap2, (if c1.switched then c1.temp.receive d heap1 else c1.memory.receive d heap1) = (x, heap2) →
            Only (Builtin.conv c1).refs heap1 heap2 := by
          intro x heap2 he
          split at he
          · have := c1.temp.receive_only d heap1
            rw [he] at this
            exact this.mono (by simp [Builtin.refs]; tauto)
          · have := c1.memory.receive_only d heap1
            rw [he] at this
            exact this.mono (by simp [Builtin.refs]; tauto)
        have comb : ∀ heap2, Only (Builtin.conv c1).refs heap1 heap2 →
            ∀ c2 : ConvH, c2.memory = c1.memory → c2.temp = c1.temp → c2.switched = c1.switched →
            Moves (.conv c) heap (.conv c2) heap2 ∧ (∀ r ∈ (Builtin.conv c2).cur, r ∈ (Builtin.conv c).cur ∨ heap.length ≤ r) ∧
            ((Builtin.conv c).refs = [] → (Builtin.conv c2).refs = []) := by
          intro heap2 ho c2 e1 e2 e3
          have er : (Builtin.conv c2).refs = (Builtin.conv c1).refs := by simp only [Builtin.refs, e1, e2]
          have ec : (Builtin.conv c2).cur = (Builtin.conv c1).cur := by simp only [Builtin.cur, e1, e2, e3]
          refine ⟨⟨Nat.le_trans k1.len ho.len, ?_, ?_, ?_⟩, by rw [ec]; exact k2, by rw [er]; exact k3⟩
          · intro r hr hn
            rw [ho.kept r (Nat.lt_of_lt_of_le hr k1.len), k1.kept r hr hn]
            intro hm
            rcases k1.refs r hm with h | h
            · exact hn h
            · omega
          · intro r hr
            rw [er] at hr
            rcases k1.refs r hr with h | h
            · exact .inl h
            · exact .inr ⟨h.1, Nat.lt_of_lt_of_le h.2 ho.len⟩
          · intro h
            exact k1.stops (by simpa only [Builtin.Stops, e1, e3] using h)
        generalize (if c1.switched then c1.temp.receive d heap1 else c1.memory.receive d heap1) = z at *
        rcases z with ⟨(e | _), heap2⟩
        · exact comb heap2 (hr _ _ rfl) c1 rfl rfl rfl
        · exact comb heap2 (hr _ _ rfl) _ rfl rfl rfl

theorem fileComplete_moves (n : Nat) (b : Builtin) (heap : Heap) :
    Moves b heap (b.fileComplete n heap).2.1 (b.fileComplete n heap).2.2 ∧
    (b.fileComplete n heap).2.1.cur = b.cur ∧ (b.fileComplete n heap).2.1.refs = b.refs ∧
    ∀ f, (b.fileComplete n heap).1 = .ok (some f) → f.ref ∈ b.cur := by
  cases b with
  | memory m =>
    obtain ⟨h1, h2⟩ := m.fileComplete_only n heap
    exact ⟨⟨h1.len, h1.kept, fun r hr => .inl hr, fun h => h⟩, rfl, rfl, h2⟩
  | temp t =>
    obtain ⟨h1, h2, h3⟩ := t.fileComplete_only n heap
    exact ⟨⟨h1.len, h1.kept, fun r hr => .inl (h2 ▸ (show r ∈ (t.fileComplete n heap).2.1.refs from hr) : r ∈ t.refs), fun h => h⟩, h2, h2, h3⟩
  | conv c =>
    simp only [Builtin.fileComplete, ConvH.fileComplete]
    by_cases hsw : c.switched = true
    · rw [if_pos hsw]
      obtain ⟨h1, h2, h3⟩ := c.temp.fileComplete_only n heap
      have h1' : Only (Builtin.conv c).refs heap (c.temp.fileComplete n heap).2.2 := h1.mono (by simp [Builtin.refs]; tauto)
      refine ⟨⟨h1'.len, h1'.kept, ?_, by simp [Builtin.Stops, hsw]⟩, ?_, ?_, ?_⟩
      · intro r hr
        simp only [Builtin.refs, h2] at hr ⊢
        exact .inl hr
      · simp only [Builtin.cur, hsw, if_true, h2]
      · simp only [Builtin.refs, h2]
      · simpa only [Builtin.cur, hsw, if_true] using h3
    · rw [if_neg hsw]
      obtain ⟨h1, h2⟩ := c.memory.fileComplete_only n heap
      have h1' : Only (Builtin.conv c).refs heap (c.memory.fileComplete n heap).2 := h1.mono (by simp [Builtin.refs]; tauto)
      exact ⟨⟨h1'.len, h1'.kept, fun r hr => .inl hr, fun h => h⟩, rfl, rfl,
        by simpa only [Builtin.cur, if_neg hsw] using h2⟩

theorem close_moves (b : Builtin) (heap : Heap) : Moves b heap b (b.close heap) := by
  have key : ∀ r ∈ b.refs, Only b.refs heap (match heap[r]? with
      | none => heap
      | some o => heap.set r { o with closed := true }) := by
    intro r hr
    split
    · exact .refl _ _
    · exact .set _ _ _ hr _
  have : Only b.refs heap (b.close heap) := by
    cases b with
    | memory m =>
      simp only [Builtin.close]
      split
      · rename_i r hr
        exact key r (by simp [Builtin.refs, MemoryH.refs, hr])
      · exact .refl _ _
    | temp t =>
      simp only [Builtin.close]
      split
      · rename_i f hr
        exact key f.ref (by simp [Builtin.refs, TempH.refs, hr])
      · exact .refl _ _
    | conv c => exact .refl _ _
  exact ⟨this.len, this.kept, fun r hr => .inl hr, fun h => h⟩

/-! ### The world -/

/-- Between files: the files of `h0` are as they were, the handlers and the collected files refer to other files, no
file has been collected twice, and handlers that have not been told of a file have none. -/
structure Apart (h0 : Heap) (n : Nat) (w : BWorld) (fs : List Uploaded) : Prop where
  count : w.hs.length = n
  len : h0.length ≤ w.heap.length
  kept : ∀ r, r < h0.length → w.heap[r]? = h0[r]?
  refs : ∀ b ∈ w.hs, ∀ r ∈ b.refs, h0.length ≤ r ∧ r < w.heap.length
  shape : w.hs.Pairwise (fun a b => a.Stops → b.refs = [])
  files : ∀ f ∈ fs, h0.length ≤ f.ref ∧ f.ref < w.heap.length
  nodup : (fs.map Uploaded.ref).Nodup

/-- While a file arrives: no handler holds a file that has been collected. -/
def Held (h0 : Heap) (n : Nat) (w : BWorld) (fs : List Uploaded) : Prop :=
  Apart h0 n w fs ∧ ∀ b ∈ w.hs, ∀ r ∈ b.cur, r ∉ fs.map Uploaded.ref

theorem Apart.step {h0 : Heap} {n : Nat} {pre post : List Builtin} {b b' : Builtin} {heap heap' : Heap} {fs : List Uploaded}
    (h : Apart h0 n ⟨pre ++ b :: post, heap⟩ fs) (hm : Moves b heap b' heap')
    (hs : b'.refs = [] ∨ b.refs ≠ [] ∨ ∀ a ∈ pre, ¬ a.Stops) : Apart h0 n ⟨pre ++ b' :: post, heap'⟩ fs := by
  obtain ⟨h1, h2, h3, h4, h5, h6, h7⟩ := h
  simp only at h1 h2 h3 h4 h5 h6
  refine ⟨by simpa using h1, Nat.le_trans h2 hm.len, ?_, ?_, ?_, ?_, h7⟩
  · intro r hr
    rw [hm.kept r (Nat.lt_of_lt_of_le hr h2), h3 r hr]
    intro hb
    have := (h4 b (by simp) r hb).1
    omega
  · intro x hx r hr
    simp only [List.mem_append, List.mem_cons] at hx
    have old : ∀ y ∈ pre ++ b :: post, r ∈ y.refs → h0.length ≤ r ∧ r < heap'.length := fun y hy hry =>
      ⟨(h4 y hy r hry).1, Nat.lt_of_lt_of_le (h4 y hy r hry).2 hm.len⟩
    rcases hx with hx | rfl | hx
    · exact old x (by simp [hx]) hr
    · rcases hm.refs r hr with h | h
      · exact old b (by simp) h
      · exact ⟨Nat.le_trans h2 h.1, h.2⟩
    · exact old x (by simp [hx]) hr
  · simp only
    rw [List.pairwise_append] at h5 ⊢
    obtain ⟨p1, p2, p3⟩ := h5
    rw [List.pairwise_cons] at p2 ⊢
    refine ⟨p1, ⟨fun x hx hst => p2.1 x hx (hm.stops hst), p2.2⟩, ?_⟩
    intro x hx y hy hst
    rcases List.mem_cons.1 hy with rfl | hy
    · rcases hs with hs | hs | hs
      · exact hs
      · exact absurd (p3 x hx b (by simp) hst) hs
      · exact absurd hst (hs x hx)
    · exact p3 x hx y (by simp [hy]) hst
  · intro f hf
    exact ⟨(h6 f hf).1, Nat.lt_of_lt_of_le (h6 f hf).2 hm.len⟩

/-- An operation of one handler on the world. -/
theorem on_cases {α : Type} (w : BWorld) (i : Nat) (f : Builtin → Heap → Res (Builtin × Heap) α) :
    (w.on i f).2 = w ∧ (w.on i f).1 = .error .indexError ∨
    ∃ pre b post, w.hs = pre ++ b :: post ∧ pre.length = i ∧
      (w.on i f) = ((f b w.heap).1, ⟨pre ++ (f b w.heap).2.1 :: post, (f b w.heap).2.2⟩) := by
  unfold BWorld.on
  cases h : w.hs[i]? with
  | none => exact .inl ⟨rfl, rfl⟩
  | some b =>
    obtain ⟨hi, hb⟩ := List.getElem?_eq_some_iff.1 h
    refine .inr ⟨w.hs.take i, b, w.hs.drop (i + 1), ?_, ?_, ?_⟩
    · rw [← hb]; simp
    · simp; omega
    · simp only
      rw [List.set_eq_take_append_cons_drop, if_pos hi]

section
variable {ρ : Type} {os : Os} {h0 : Heap} {n : Nat}

theorem newFiles_idle (hos : ∀ x, os.tempFile x ≠ .error .stopFutureHandlers) (a : NewFileArgs) (fs : List Uploaded)
    (n1 : Nat) (hn : ∀ f ∈ fs, f.ref < n1) : ∀ (post pre : List Builtin) (heap : Heap), n1 ≤ heap.length →
    Apart h0 n ⟨pre ++ post, heap⟩ fs → (∀ b ∈ pre, ¬ b.Stops ∧ ∀ r ∈ b.cur, n1 ≤ r) →
    let z := newFiles (builtinOps ρ os n) a (List.range' pre.length post.length) ⟨pre ++ post, heap⟩
    Apart h0 n z.2 fs ∧ (z.1 = .ok () → Held h0 n z.2 fs) := by
  have notin : ∀ r, n1 ≤ r → r ∉ fs.map Uploaded.ref := by
    intro r hr hm
    obtain ⟨f, hf, rfl⟩ := List.mem_map.1 hm
    have := hn f hf
    omega
  intro post
  induction post with
  | nil =>
    intro pre heap _ h hp
    simp only [List.length_nil, List.range'_zero, newFiles, List.append_nil] at h ⊢
    exact ⟨h, fun _ => ⟨h, fun b hb r hr => notin r ((hp b hb).2 r hr)⟩⟩
  | cons b post ih =>
    intro pre heap hlen h hp
    rw [List.length_cons, List.range'_succ]
    obtain ⟨m1, m2, m3, m4⟩ := newFile_moves os hos a b heap
    have e : (builtinOps ρ os n).newFile pre.length a ⟨pre ++ b :: post, heap⟩ =
        ((b.newFile os a heap).1, ⟨pre ++ (b.newFile os a heap).2.1 :: post, (b.newFile os a heap).2.2⟩) := by
      simp [builtinOps, BWorld.on]
    unfold newFiles
    rw [e]
    clear e
    have hi := h.step m1 (.inr (.inr fun x hx => (hp x hx).1))
    generalize b.newFile os a heap = z at *
    obtain ⟨r, b', heap'⟩ := z
    simp only at m1 m2 m3 m4 hi
    cases r with
    | ok u =>
      simp only
      have := ih (pre ++ [b']) heap' (Nat.le_trans hlen m1.len) (by simpa using hi) (by
        intro x hx
        rcases List.mem_append.1 hx with hx | hx
        · exact hp x hx
        · rw [List.mem_singleton] at hx
          subst hx
          exact ⟨m2 rfl, fun r hr => Nat.le_trans hlen (m3 (.inl rfl) r hr)⟩)
      simpa using this
    | error e =>
      by_cases hst : e = .stopFutureHandlers
      · subst hst
        simp only
        refine ⟨hi, fun _ => ⟨hi, ?_⟩⟩
        intro x hx r hr
        simp only [List.mem_append, List.mem_cons] at hx
        rcases hx with hx | rfl | hx
        · exact notin r ((hp x hx).2 r hr)
        · exact notin r (Nat.le_trans hlen (m3 (.inr rfl) r hr))
        · have hsh := h.shape
          simp only at hsh
          rw [List.pairwise_append] at hsh
          have := (List.pairwise_cons.1 hsh.2.1).1 x hx (m4 rfl)
          have hr' := x.cur_refs r hr
          rw [this] at hr'
          cases hr'
      · have : ∀ w', (match ((.error e, w') : Res BWorld Unit) with
            | (.error .stopFutureHandlers, w) => (.ok (), w)
            | (.error e, w) => (.error e, w)
            | (.ok (), w) => newFiles (builtinOps ρ os n) a (List.range' (pre.length + 1) post.length) w) = (.error e, w') := by
          intro w'
          cases e <;> first | rfl | exact absurd rfl hst
        simp only [this]
        exact ⟨hi, by simp⟩

theorem builtin_tracks (hos : ∀ x, os.tempFile x ≠ .error .stopFutureHandlers) :
    (builtinOps ρ os n).Tracks (Apart h0 n) (Held h0 n) where
  perm w fs fs' hp h := ⟨h.count, h.len, h.kept, h.refs, h.shape, fun f hf => h.files f (hp.mem_iff.2 hf),
    (hp.map _).nodup_iff.1 h.nodup⟩
  idle w fs h := h.1
  newFiles a w fs h := by
    obtain ⟨hs, heap⟩ := w
    have := newFiles_idle (ρ := ρ) hos a fs heap.length (fun f hf => (h.files f hf).2) hs [] heap (Nat.le_refl _) h (by simp)
    have hc : hs.length = n := h.count
    simp only [List.length_nil, List.nil_append, ← List.range_eq_range', hc] at this
    exact this
  receive i d k w fs h := by
    simp only [builtinOps]
    rcases on_cases w i (fun b hp => b.receive os d hp) with ⟨e, -⟩ | ⟨pre, b, post, e1, -, e2⟩
    · rw [e]; exact h
    · rw [e2]
      obtain ⟨hs, heap⟩ := w
      simp only at e1
      subst e1
      obtain ⟨m1, m2, m3⟩ := receive_moves os d b heap
      refine ⟨h.1.step m1 ?_, ?_⟩
      · by_cases hb : b.refs = []
        · exact .inl (m3 hb)
        · exact .inr (.inl hb)
      · intro x hx r hr
        simp only [List.mem_append, List.mem_cons] at hx
        rcases hx with hx | rfl | hx
        · exact h.2 x (by simp [hx]) r hr
        · rcases m2 r hr with hr | hr
          · exact h.2 b (by simp) r hr
          · intro hm
            obtain ⟨f, hf, rfl⟩ := List.mem_map.1 hm
            have := (h.1.files f hf).2
            simp only at this
            omega
        · exact h.2 x (by simp [hx]) r hr
  fileComplete i k w fs h := by
    simp only [builtinOps]
    rcases on_cases w i (fun b hp => b.fileComplete k hp) with ⟨e, -⟩ | ⟨pre, b, post, e1, -, e2⟩
    · rw [e]; exact h
    · rw [e2]
      obtain ⟨hs, heap⟩ := w
      simp only at e1
      subst e1
      obtain ⟨m1, m2, m3, -⟩ := fileComplete_moves k b heap
      refine ⟨h.1.step m1 ?_, ?_⟩
      · rw [m3]
        by_cases hb : b.refs = []
        · exact .inl hb
        · exact .inr (.inl hb)
      · intro x hx r hr
        simp only [List.mem_append, List.mem_cons] at hx
        rcases hx with hx | rfl | hx
        · exact h.2 x (by simp [hx]) r hr
        · rw [m2] at hr
          exact h.2 b (by simp) r hr
        · exact h.2 x (by simp [hx]) r hr
  complete i k w fs f h hf := by
    simp only [builtinOps] at hf ⊢
    rcases on_cases w i (fun b hp => b.fileComplete k hp) with ⟨-, e⟩ | ⟨pre, b, post, e1, -, e2⟩
    · rw [e] at hf; cases hf
    · rw [e2] at hf ⊢
      obtain ⟨hs, heap⟩ := w
      simp only at e1
      subst e1
      obtain ⟨m1, m2, m3, m4⟩ := fileComplete_moves k b heap
      have hi := h.1.step m1 (by
        rw [m3]
        by_cases hb : b.refs = []
        · exact .inl hb
        · exact .inr (.inl hb))
      have hcur := m4 f hf
      have hr := h.1.refs b (by simp) f.ref (b.cur_refs _ hcur)
      refine ⟨hi.count, hi.len, hi.kept, hi.refs, hi.shape, ?_, ?_⟩
      · intro g hg
        rcases List.mem_cons.1 hg with rfl | hg
        · exact ⟨hr.1, Nat.lt_of_lt_of_le hr.2 m1.len⟩
        · exact hi.files g hg
      · rw [List.map_cons, List.nodup_cons]
        exact ⟨h.2 b (by simp) _ hcur, hi.nodup⟩
  uploadComplete i w fs h := h
  close i w fs h := by
    simp only [builtinOps]
    rcases on_cases w i (fun b h => (.ok (), b, b.close h)) with ⟨e, -⟩ | ⟨pre, b, post, e1, -, e2⟩
    · rw [e]; exact h
    · rw [e2]
      obtain ⟨hs, heap⟩ := w
      simp only at e1
      subst e1
      refine h.step (close_moves b heap) ?_
      by_cases hb : b.refs = []
      · exact .inl hb
      · exact .inr (.inl hb)

end

/-! ### The request -/

namespace Spec

/-- A handler as its constructor leaves it. -/
def NewHandler (b : Builtin) : Prop := b = .memory {} ∨ b = .temp {} ∨ b = .conv {}

/-- Every class of the modules makes new handlers. -/
def MakesNew (mods : Modules (Except Exc Builtin)) : Prop :=
  ∀ p attrs name b, mods p = .ok attrs → attrs name = some (.ok b) → NewHandler b

/-- The files of a dictionary, in order. -/
def filesIn (d : Option (MVD Uploaded)) : List Uploaded := (d.getD []).flatMap Prod.snd

/-- The files are different ones, and none of the `n` files that there were before. -/
def NewFiles (n : Nat) (heap : Heap) (fs : List Uploaded) : Prop :=
  (fs.map Uploaded.ref).Nodup ∧ ∀ f ∈ fs, n ≤ f.ref ∧ f.ref < heap.length

end Spec

theorem filesIn_some (d : MVD Uploaded) : filesIn (some d) = filesOf d := by
  simp [filesIn, filesOf, items, List.map_flatMap, Function.comp_def]

theorem makesNew_load {mods : Modules (Except Exc Builtin)} (h : MakesNew mods) : ∀ (names : List Bytes)
    (hs : List Builtin), loadHandlers mods names = .ok hs → ∀ b ∈ hs, NewHandler b := by
  intro names
  induction names with
  | nil => intro hs e; cases e; simp
  | cons p ps ih =>
    intro hs e
    unfold loadHandlers at e
    cases hl : loadHandler mods p with
    | error x => rw [hl] at e; cases e
    | ok b =>
      rw [hl] at e
      simp only at e
      cases hl2 : loadHandlers mods ps with
      | error x => rw [hl2] at e; cases e
      | ok bs =>
        rw [hl2] at e
        cases e
        intro x hx
        rcases List.mem_cons.1 hx with rfl | hx
        · unfold loadHandler importString at hl
          cases hf : Py.rfindChar 46 p with
          | none => rw [hf] at hl; cases hl
          | some i =>
            rw [hf] at hl
            simp only at hl
            cases hm : mods (p.take i) with
            | error x => rw [hm] at hl; cases hl
            | ok attrs =>
              rw [hm] at hl
              simp only at hl
              cases ha : attrs (p.drop (i + 1)) with
              | none => rw [ha] at hl; cases hl
              | some v =>
                rw [ha] at hl
                simp only at hl
                subst hl
                exact h _ _ _ _ hm ha
        · exact ih bs hl2 x hx

theorem newHandler_refs {b : Builtin} (h : NewHandler b) (a : RawArgs) : (b.rawInput a).refs = [] := by
  rcases h with rfl | rfl | rfl <;> rfl

theorem Apart.nil {h0 : Heap} {n : Nat} {w : BWorld} {fs : List Uploaded} (h : Apart h0 n w fs) : Apart h0 n w [] :=
  ⟨h.count, h.len, h.kept, h.refs, h.shape, by simp, by simp⟩

section
variable {ρ : Type} [Producer ρ] {C : Codecs} {up : List UStr} {os : Os} {mods : Modules (Except Exc Builtin)}
  {names : List Bytes} {fuel64 : Nat} {hs : List Builtin} {heap : Heap}

/-- What is known of the request and the world after a step of the parser. -/
def After (h0 : Heap) (n : Nat) (o : Option (MVD Uploaded)) (r : Req ρ BWorld Uploaded) (w : BWorld) : Prop :=
  Apart h0 n w [] ∧ (r.files_ = o ∨ ∃ d, r.files_ = some d ∧ Apart h0 n w (filesOf d))

theorem map_apart (g : Builtin → Builtin) (hg : ∀ b ∈ hs, (g b).refs = []) :
    Apart heap hs.length ⟨hs.map g, heap⟩ [] := by
  refine ⟨by simp, Nat.le_refl _, fun _ _ => rfl, ?_, ?_, by simp, by simp⟩
  · intro b hb r hr
    obtain ⟨x, hx, rfl⟩ := List.mem_map.1 hb
    rw [hg x hx] at hr
    cases hr
  · apply List.Pairwise.imp_of_mem (R := fun _ _ => True)
    · intro a b _ hb _ _
      obtain ⟨x, hx, rfl⟩ := List.mem_map.1 hb
      exact hg x hx
    · exact List.pairwise_of_forall (fun _ _ => trivial)

theorem new_apart (hn : ∀ b ∈ hs, NewHandler b) : Apart heap hs.length ⟨hs, heap⟩ [] := by
  have := map_apart (heap := heap) id (fun b hb => by rcases hn b hb with rfl | rfl | rfl <;> rfl : ∀ b ∈ hs, _)
  simpa using this

theorem parseFileUpload_apart (hos : ∀ x, os.tempFile x ≠ .error .stopFutureHandlers)
    (hl : loadHandlers mods names = .ok hs) (hn : ∀ b ∈ hs, NewHandler b) (S : Settings) (r : Req ρ BWorld Uploaded) :
    let z := parseFileUpload (namedEnv ρ C up os mods names fuel64) S (builtinOps ρ os hs.length) r ⟨hs, heap⟩
    Apart heap hs.length z.2.2 [] ∧ z.2.1.files_ = r.files_ ∧
      ∀ p f, z.1 = .ok (p, f) → Apart heap hs.length z.2.2 (filesOf f) := by
  have h0 : Apart heap hs.length ⟨hs, heap⟩ [] := new_apart hn
  have hload : (if (builtinOps ρ os hs.length).count = 0 then
      (namedEnv ρ C up os mods names fuel64).load ⟨hs, heap⟩ else (.ok (builtinOps ρ os hs.length), ⟨hs, heap⟩)) =
      (.ok (builtinOps ρ os hs.length), ⟨hs, heap⟩) := by
    simp only [namedEnv, hl, ite_self]
  unfold parseFileUpload
  cases r.info.bind (·.headers) with
  | none => exact ⟨h0, rfl, by simp⟩
  | some h =>
    simp only [hload]
    cases MultiPart.create (namedEnv ρ C up os mods names fuel64).C (builtinOps ρ os hs.length)
        ((h.get? b!"Content-Type").bind List.getLast?) ((h.get? b!"Content-Length").bind List.getLast?) with
    | error e => exact ⟨h0, rfl, by simp⟩
    | ok m =>
      simp only
      generalize unicodeBoundary (namedEnv ρ C up os mods names fuel64).C _ = text
      by_cases hz : m.contentLength = 0
      · have e : ∀ C, m.run C S (builtinOps ρ os hs.length) fuel64 text r.stream ⟨hs, heap⟩ =
            (match emptyQueryDict C S with
              | .error e => (.error e, r.stream, ⟨hs, heap⟩)
              | .ok () => (.ok ([], []), r.stream, ⟨hs, heap⟩)) := by
          intro C
          cases text
          · simp only [MultiPart.run, MultiPart.parse, hz, if_true, Bool.false_eq_true, if_false]
            cases emptyQueryDict C S <;> rfl
          · simp only [MultiPart.run, MultiPart.parseText, hz, if_true]
            cases emptyQueryDict C S <;> rfl
        have e' := e (namedEnv ρ C up os mods names fuel64).C
        simp only [namedEnv] at e' ⊢
        rw [e']
        cases emptyQueryDict C S with
        | error x => exact ⟨h0, trivial, by simp⟩
        | ok u =>
          refine ⟨h0, trivial, ?_⟩
          intro p f hpf
          cases hpf
          exact h0
      · have hraw := rawInputLoop_builtin (ρ := ρ) os hs.length
          { contentLength := m.contentLength, boundary := m.boundary, settings := S } r.stream heap hs []
        simp only [List.length_nil, List.nil_append, ← List.range_eq_range'] at hraw
        have hrun := run_tracks (builtin_tracks (ρ := ρ) (n := hs.length) (h0 := heap) hos)
          (namedEnv ρ C up os mods names fuel64).C S (namedEnv ρ C up os mods names fuel64).fuel64 text m hz r.stream
          r.stream ⟨hs, heap⟩ _ hraw (map_apart _ fun b hb => newHandler_refs (hn b hb) _)
        generalize m.run (namedEnv ρ C up os mods names fuel64).C S (builtinOps ρ os hs.length)
          (namedEnv ρ C up os mods names fuel64).fuel64 text r.stream ⟨hs, heap⟩ = y at hrun ⊢
        obtain ⟨x, s, w⟩ := y
        obtain ⟨⟨fs, hfs⟩, h2⟩ := hrun
        exact ⟨hfs.nil, trivial, h2⟩

theorem markError_files (S : Settings) (e : Exc) (r : Req ρ BWorld Uploaded) :
    (markError C S e r).1.files_ = r.files_ ∨ (markError C S e r).1.files_ = some [] := by
  unfold markError
  cases queryDict C S none false
  · exact .inl rfl
  · exact .inr rfl

theorem bodyCore_files (S : Settings) (r : Req ρ BWorld Uploaded) : (bodyCore S r).2.files_ = r.files_ := by
  unfold bodyCore
  split
  · rfl
  · split
    · rfl
    · split
      · rfl
      · unfold readBody
        rcases r.stream.read (some 65536) with ⟨o, s⟩
        cases o with
        | error e => rfl
        | ok c =>
          simp only
          rcases bodyLoop S.dataMaxMemory (s.size + 2) [] c c.length s with ⟨o, s⟩
          cases o <;> rfl

theorem After.empty {n : Nat} {o : Option (MVD Uploaded)} {r : Req ρ BWorld Uploaded} {w : BWorld}
    (h : Apart heap n w []) (he : r.files_ = o ∨ r.files_ = some []) : After heap n o r w :=
  ⟨h, he.imp_right fun he => ⟨[], he, h⟩⟩

theorem parseByType_apart (hos : ∀ x, os.tempFile x ≠ .error .stopFutureHandlers)
    (hl : loadHandlers mods names = .ok hs) (hn : ∀ b ∈ hs, NewHandler b) (S : Settings) (r : Req ρ BWorld Uploaded) :
    let z := parseByType (namedEnv ρ C up os mods names fuel64) S (builtinOps ρ os hs.length) r ⟨hs, heap⟩
    After heap hs.length r.files_ z.2.1 z.2.2 := by
  have h0 : Apart heap hs.length ⟨hs, heap⟩ [] := new_apart hn
  unfold parseByType
  cases r.contentType with
  | none => exact .empty h0 (.inl rfl)
  | some ct =>
    simp only
    split
    · have h := parseFileUpload_apart (C := C) (up := up) (fuel64 := fuel64) (heap := heap) hos hl hn S r
      generalize parseFileUpload (namedEnv ρ C up os mods names fuel64) S (builtinOps ρ os hs.length) r ⟨hs, heap⟩ = y at h ⊢
      obtain ⟨x, r', w⟩ := y
      obtain ⟨h1, h2, h3⟩ := h
      simp only at h1 h2 h3
      cases x with
      | ok pf =>
        obtain ⟨p, f⟩ := pf
        exact ⟨h1, .inr ⟨f, rfl, h3 p f rfl⟩⟩
      | error e =>
        have hm := markError_files (C := (namedEnv ρ C up os mods names fuel64).C) S .multiPartParserError r'
        split
        · next heq =>
          cases heq
          exact .empty h1 (h2 ▸ hm)
        · next heq =>
          cases heq
          exact .empty h1 (.inl h2)
        · next heq => cases heq
    · split
      · have h := bodyCore_files S r
        generalize bodyCore S r = y at h ⊢
        obtain ⟨x, r'⟩ := y
        cases x with
        | error e => exact .empty h0 (.inl h)
        | ok b =>
          simp only
          cases queryDict (namedEnv ρ C up os mods names fuel64).C S (some b) false with
          | error e => exact .empty h0 (.inl h)
          | ok q => exact .empty h0 (.inr rfl)
      · cases queryDict (namedEnv ρ C up os mods names fuel64).C S none false with
        | error e => exact .empty h0 (.inl rfl)
        | ok q => exact .empty h0 (.inr rfl)

theorem finishBody_files (S : Settings) (r : Req ρ BWorld Uploaded) :
    (finishBody C S r).2.files_ = r.files_ ∧
      ((finishBody C S r).2.files = r.files ∨ (finishBody C S r).2.files = r.files_) := by
  unfold finishBody
  have h1 := bodyCore_files S r
  have h2 := (bodyCore_frame S r).files
  generalize bodyCore S r = y at h1 h2 ⊢
  obtain ⟨x, r'⟩ := y
  cases x with
  | error e => exact ⟨h1, .inl h2⟩
  | ok b =>
    simp only
    cases decodeBody C S b with
    | error e => exact ⟨h1, .inl h2⟩
    | ok u => exact ⟨h1, .inr h1⟩

theorem parseBodyStream_apart (hos : ∀ x, os.tempFile x ≠ .error .stopFutureHandlers)
    (hl : loadHandlers mods names = .ok hs) (hn : ∀ b ∈ hs, NewHandler b) (S : Settings) (r : Req ρ BWorld Uploaded) :
    let z := parseBodyStream (namedEnv ρ C up os mods names fuel64) S (builtinOps ρ os hs.length) r ⟨hs, heap⟩
    After heap hs.length r.files_ z.2.1 z.2.2 ∧ (z.2.1.files = r.files ∨ z.2.1.files = z.2.1.files_) := by
  have h0 : Apart heap hs.length ⟨hs, heap⟩ [] := new_apart hn
  unfold parseBodyStream
  rcases r.stream.read (some 1) with ⟨o, s⟩
  cases o with
  | error e => exact ⟨.empty h0 (.inl rfl), .inl rfl⟩
  | ok data =>
    simp only
    split
    · cases queryDict (namedEnv ρ C up os mods names fuel64).C S none false with
      | error e => exact ⟨.empty h0 (.inl rfl), .inl rfl⟩
      | ok q => exact ⟨.empty h0 (.inr rfl), .inl rfl⟩
    · rcases s.unget data with ⟨o, s⟩
      cases o with
      | error e => exact ⟨.empty h0 (.inl rfl), .inl rfl⟩
      | ok u =>
        simp only
        have h := parseByType_apart (C := C) (up := up) (fuel64 := fuel64) (heap := heap) hos hl hn S
          { r with stream := s }
        have hf := (parseByType_frame (namedEnv ρ C up os mods names fuel64) S (builtinOps ρ os hs.length)
          { r with stream := s } ⟨hs, heap⟩).files
        generalize parseByType (namedEnv ρ C up os mods names fuel64) S (builtinOps ρ os hs.length)
          { r with stream := s } ⟨hs, heap⟩ = y at h hf ⊢
        obtain ⟨x, r', w⟩ := y
        simp only at h hf
        cases x with
        | error e => exact ⟨h, .inl hf⟩
        | ok u =>
          simp only
          have g := finishBody_files (C := (namedEnv ρ C up os mods names fuel64).C) S r'
          generalize finishBody (namedEnv ρ C up os mods names fuel64).C S r' = y at g ⊢
          obtain ⟨x, r''⟩ := y
          simp only at g ⊢
          refine ⟨⟨h.1, g.1 ▸ h.2⟩, ?_⟩
          rcases g.2 with g2 | g2
          · exact .inl (g2.trans hf)
          · exact .inr (g2.trans g.1.symm)

theorem parseRequestHeader_files (E : Env ρ BWorld Uploaded) (S : Settings) (r : Req ρ BWorld Uploaded) :
    (parseRequestHeader E S r).2.2.files_ = r.files_ := by
  unfold parseRequestHeader
  cases r.headerParsed with
  | true => rfl
  | false =>
    simp only [Bool.false_eq_true, if_false]
    rcases headerLoop S.maxHeaderSize (r.stream.size + 2) [] false r.stream with ⟨o, s, st⟩
    cases o with
    | error e => rfl
    | ok hr =>
      obtain ⟨header, rest⟩ := hr
      simp only
      rcases s.unget rest with ⟨o, s⟩
      cases o with
      | error e => rfl
      | ok u => exact (applyHeader_frame E header S { r with stream := s, headerParsed := true }).1.files_

/-- The old files, and those of the request, after `parse`. -/
theorem parseRequest_apart (hos : ∀ x, os.tempFile x ≠ .error .stopFutureHandlers) (hm : MakesNew mods)
    (S : Settings) (r : Req ρ BWorld Uploaded) (w : BWorld) (h1 : filesIn r.files = []) (h2 : filesIn r.files_ = []) :
    let z := parseRequest (namedEnv ρ C up os mods names fuel64) S r w
    w.heap.length ≤ z.2.2.2.heap.length ∧ (∀ i, i < w.heap.length → z.2.2.2.heap[i]? = w.heap[i]?) ∧
    NewFiles w.heap.length z.2.2.2.heap (filesIn z.2.2.1.files_) ∧
    (z.2.2.1.files = r.files ∨ z.2.2.1.files = z.2.2.1.files_) := by
  have none_new : ∀ (n : Nat) (h : Heap), NewFiles n h (filesIn r.files_) := fun n h => by simp [NewFiles, h2]
  have some_new : ∀ (n : Nat) (h : Heap), NewFiles n h (filesIn (some [])) := fun n h => by simp [NewFiles, filesIn]
  unfold parseRequest
  have f1 := parseRequestHeader_files (namedEnv ρ C up os mods names fuel64) S r
  have f2 := (parseRequestHeader_frame (namedEnv ρ C up os mods names fuel64) S r).2.2.1
  generalize parseRequestHeader (namedEnv ρ C up os mods names fuel64) S r = y at f1 f2 ⊢
  obtain ⟨x, S', r'⟩ := y
  simp only at f1 f2
  cases x with
  | error e => exact ⟨Nat.le_refl _, fun _ _ => rfl, by simp only [f1]; exact none_new _ _, .inl f2⟩
  | ok u =>
    simp only
    unfold parseRequestBody
    split
    · exact ⟨Nat.le_refl _, fun _ _ => rfl, by simp only [f1]; exact none_new _ _, .inl f2⟩
    · cases hl : loadHandlers mods names with
      | error e =>
        have e1 : (namedEnv ρ C up os mods names fuel64).load w = (.error e, w) := by simp only [namedEnv, hl]
        rw [e1]
        exact ⟨Nat.le_refl _, fun _ _ => rfl, by simp only [f1]; exact none_new _ _, .inl f2⟩
      | ok hs =>
        have e1 : (namedEnv ρ C up os mods names fuel64).load w =
            (.ok (builtinOps ρ os hs.length), ⟨hs, w.heap⟩) := by simp only [namedEnv, hl]
        rw [e1]
        simp only
        split
        · have hk := markError_files (C := (namedEnv ρ C up os mods names fuel64).C) S' .requestHeaderParse
            { r' with handlers := some (builtinOps ρ os hs.length) }
          have hk2 := (markError_frame (namedEnv ρ C up os mods names fuel64).C S' .requestHeaderParse
            { r' with handlers := some (builtinOps ρ os hs.length) }).files
          generalize markError (namedEnv ρ C up os mods names fuel64).C S' .requestHeaderParse
            { r' with handlers := some (builtinOps ρ os hs.length) } = y at hk hk2 ⊢
          obtain ⟨r'', e⟩ := y
          simp only [f1, f2] at hk hk2 ⊢
          refine ⟨Nat.le_refl _, fun _ _ => trivial, ?_, .inl hk2⟩
          rcases hk with hk | hk <;> rw [hk]
          · exact none_new _ _
          · exact some_new _ _
        · have hk := parseBodyStream_apart (C := C) (up := up) (fuel64 := fuel64) (heap := w.heap) hos hl
            (makesNew_load hm names hs hl) S' { r' with handlers := some (builtinOps ρ os hs.length) }
          generalize parseBodyStream (namedEnv ρ C up os mods names fuel64) S' (builtinOps ρ os hs.length)
            { r' with handlers := some (builtinOps ρ os hs.length) } ⟨hs, w.heap⟩ = y at hk ⊢
          obtain ⟨x, r'', w'⟩ := y
          simp only [f1, f2] at hk ⊢
          obtain ⟨⟨ha, hd⟩, hfs⟩ := hk
          refine ⟨ha.len, ha.kept, ?_, hfs⟩
          rcases hd with hd | ⟨d, hd, hap⟩
          · rw [hd]; exact none_new _ _
          · rw [hd, filesIn_some]
            exact ⟨hap.nodup, hap.files⟩

/-- `parse` of a request that has no files yet, with built-in handlers, leaves every file that there was as it was,
whatever the stream and however parsing ends; the files of the request are new ones, and different ones. -/
theorem C118_isolated (hos : ∀ x, os.tempFile x ≠ .error .stopFutureHandlers) (hm : MakesNew mods)
    (S : Settings) (r : Req ρ BWorld Uploaded) (w : BWorld) (h1 : filesIn r.files = []) (h2 : filesIn r.files_ = []) :
    let z := parseRequest (namedEnv ρ C up os mods names fuel64) S r w
    w.heap <+: z.2.2.2.heap ∧ NewFiles w.heap.length z.2.2.2.heap (filesIn z.2.2.1.files_) ∧
      NewFiles w.heap.length z.2.2.2.heap (filesIn z.2.2.1.files) := by
  have hf := h1
  obtain ⟨h1, h2, h3, h4⟩ := parseRequest_apart (C := C) (up := up) (names := names) (fuel64 := fuel64) hos hm S r w h1 h2
  refine ⟨?_, h3, ?_⟩
  · rw [List.prefix_iff_getElem?]
    intro i hi
    rw [h2 i hi]
    exact List.getElem?_eq_getElem hi
  · rcases h4 with h4 | h4 <;> rw [h4]
    · simp [NewFiles, hf]
    · exact h3

/-- A new request has no files. -/
theorem C118_new {S : Settings} {p : ρ} {r : Req ρ BWorld Uploaded} (h : Req.new C S p = .ok r) :
    filesIn r.files = [] ∧ filesIn r.files_ = [] := by
  unfold Req.new at h
  cases hq : queryDict C S none true with
  | error e => rw [hq] at h; cases h
  | ok q =>
    rw [hq] at h
    simp only [Req.reInit] at h
    split at h
    · cases h
    · next heq =>
      cases h
      split at heq
      · cases heq
      · cases heq
        exact ⟨rfl, rfl⟩

/-- Requests that are parsed one after another, each with settings and handler names of its own. -/
def serve (C : Codecs) (up : List UStr) (os : Os) (mods : Modules (Except Exc Builtin)) (fuel64 : Nat) :
    List (List Bytes × Settings × Req ρ BWorld Uploaded) → BWorld → List (Req ρ BWorld Uploaded) × BWorld
  | [], w => ([], w)
  | (names, S, r) :: js, w =>
    let z := parseRequest (namedEnv ρ C up os mods names fuel64) S r w
    let y := serve C up os mods fuel64 js z.2.2.2
    (z.2.2.1 :: y.1, y.2)

theorem serve_prefix (hos : ∀ x, os.tempFile x ≠ .error .stopFutureHandlers) (hm : MakesNew mods) :
    ∀ (js : List (List Bytes × Settings × Req ρ BWorld Uploaded)) (w : BWorld),
    (∀ j ∈ js, filesIn j.2.2.files = [] ∧ filesIn j.2.2.files_ = []) →
    w.heap <+: (serve C up os mods fuel64 js w).2.heap := by
  intro js
  induction js with
  | nil => intro w _; exact List.prefix_refl _
  | cons j js ih =>
    intro w hj
    obtain ⟨names, S, r⟩ := j
    exact (C118_isolated (C := C) (up := up) (names := names) (fuel64 := fuel64) hos hm S r w
      (hj (names, S, r) (by simp)).1 (hj (names, S, r) (by simp)).2).1.trans (ih _ (fun j h => hj j (by simp [h])))

/-- The files of any number of requests are different ones, and a request leaves the files of the earlier ones, and
those that there were, as they were. -/
theorem C118_requests (hos : ∀ x, os.tempFile x ≠ .error .stopFutureHandlers) (hm : MakesNew mods) :
    ∀ (js : List (List Bytes × Settings × Req ρ BWorld Uploaded)) (w : BWorld),
    (∀ j ∈ js, filesIn j.2.2.files = [] ∧ filesIn j.2.2.files_ = []) →
    w.heap <+: (serve C up os mods fuel64 js w).2.heap ∧
    NewFiles w.heap.length (serve C up os mods fuel64 js w).2.heap
      ((serve C up os mods fuel64 js w).1.flatMap fun r => filesIn r.files_) ∧
    ∀ (a b : List (List Bytes × Settings × Req ρ BWorld Uploaded)), js = a ++ b →
      (serve C up os mods fuel64 js w).1.take a.length = (serve C up os mods fuel64 a w).1 ∧
      ∀ r ∈ (serve C up os mods fuel64 a w).1, ∀ f ∈ filesIn r.files_,
        (serve C up os mods fuel64 js w).2.heap[f.ref]? = (serve C up os mods fuel64 a w).2.heap[f.ref]? ∧
        ((serve C up os mods fuel64 a w).2.heap[f.ref]?).isSome := by
  intro js
  induction js with
  | nil =>
    intro w _
    refine ⟨List.prefix_refl _, by simp [serve, NewFiles], ?_⟩
    intro a b e
    obtain ⟨rfl, rfl⟩ := List.append_eq_nil_iff.1 e.symm
    simp [serve]
  | cons j js ih =>
    intro w hj
    obtain ⟨names, S, r⟩ := j
    obtain ⟨p1, p2, -⟩ := C118_isolated (C := C) (up := up) (names := names) (fuel64 := fuel64) hos hm S r w
      (hj (names, S, r) (by simp)).1 (hj (names, S, r) (by simp)).2
    obtain ⟨q1, q2, q3⟩ := ih (parseRequest (namedEnv ρ C up os mods names fuel64) S r w).2.2.2
      (fun j h => hj j (by simp [h]))
    have e : ∀ js, serve C up os mods fuel64 ((names, S, r) :: js) w =
      ((parseRequest (namedEnv ρ C up os mods names fuel64) S r w).2.2.1 ::
        (serve C up os mods fuel64 js (parseRequest (namedEnv ρ C up os mods names fuel64) S r w).2.2.2).1,
        (serve C up os mods fuel64 js (parseRequest (namedEnv ρ C up os mods names fuel64) S r w).2.2.2).2) := fun _ => rfl
    rw [e]
    generalize parseRequest (namedEnv ρ C up os mods names fuel64) S r w = z at *
    obtain ⟨x, S', r', w'⟩ := z
    simp only at p1 p2 q1 q2 q3 e ⊢
    refine ⟨p1.trans q1, ?_, ?_⟩
    · refine ⟨?_, ?_⟩
      · rw [List.flatMap_cons, List.map_append, List.nodup_append]
        refine ⟨p2.1, q2.1, ?_⟩
        intro i hi k hk he
        obtain ⟨f, hf, rfl⟩ := List.mem_map.1 hi
        obtain ⟨g, hg, rfl⟩ := List.mem_map.1 hk
        have := (p2.2 f hf).2
        have := (q2.2 g hg).1
        omega
      · intro f hf
        rw [List.flatMap_cons, List.mem_append] at hf
        rcases hf with hf | hf
        · exact ⟨(p2.2 f hf).1, Nat.lt_of_lt_of_le (p2.2 f hf).2 q1.length_le⟩
        · exact ⟨Nat.le_trans p1.length_le (q2.2 f hf).1, (q2.2 f hf).2⟩
    · intro a b hab
      cases a with
      | nil => simp [serve]
      | cons j' a =>
        rw [List.cons_append, List.cons.injEq] at hab
        obtain ⟨rfl, rfl⟩ := hab
        obtain ⟨q31, q32⟩ := q3 a b rfl
        rw [e]
        simp only
        refine ⟨by simp [q31], ?_⟩
        intro x hx f hf
        rcases List.mem_cons.1 hx with rfl | hx
        · have hlt := (p2.2 f hf).2
          have qa := serve_prefix (C := C) (up := up) (fuel64 := fuel64) hos hm a w'
            (fun j h => hj j (by simp [h]))
          rw [List.prefix_iff_getElem?] at q1 qa
          rw [q1 _ hlt, qa _ hlt]
          exact ⟨rfl, rfl⟩
        · exact q32 x hx f hf

end

theorem sampleModules_new : MakesNew sampleModules := by
  intro p attrs name b h1 h2
  unfold sampleModules at h1
  split at h1
  · cases h1
    unfold uploadhandlerModule at h2
    split at h2
    · cases h2; exact .inl rfl
    · split at h2
      · cases h2; exact .inr (.inl rfl)
      · split at h2
        · cases h2; exact .inr (.inr rfl)
        · cases h2
  · cases h1

/-- A request with two files. -/
def twoFileRequest : Bytes :=
  b!"POST http://h/p?q HTTP/1.1\r\nContent-Type: multipart/form-data; boundary=B\r\nContent-Length: 50\r\n\r\n" ++
  b!"--B\r\nContent-Disposition: form-data; name=\"a\"; filename=f\r\n\r\nx\r\n" ++
  b!"--B\r\nContent-Disposition: form-data; name=\"a\"; filename=g\r\n\r\nyz\r\n--B--"

def twoFileReq : Req Source BWorld Uploaded :=
  (Req.new pyCodecs {} ⟨[twoFileRequest]⟩).toOption.getD { stream := LazyStream.mk' ⟨[]⟩ }

/-- Two such requests in a world with a file, with the default handler and with a memory handler before a temporary
one. -/
def twoFileJobs : List (List Bytes × Settings × Req Source BWorld Uploaded) :=
  [(defaultHandlers, {}, twoFileReq), ([b!"request_parser.files.uploadhandler.MemoryFileUploadHandler",
    b!"request_parser.files.uploadhandler.TemporaryFileUploadHandler"], {}, twoFileReq)]

example := C118_requests (C := pyCodecs) (up := []) (os := goodOs) (fuel64 := 0) (by simp [goodOs]) sampleModules_new
  twoFileJobs ⟨[], [{ data := b!"old" }]⟩ (by decide +kernel)

example : (serve pyCodecs [] goodOs sampleModules 0 twoFileJobs ⟨[], [{ data := b!"old" }]⟩).1.map
      (fun r => (filesIn r.files_).map Uploaded.ref) = [[1, 2], [3, 4]] ∧
    (serve pyCodecs [] goodOs sampleModules 0 twoFileJobs ⟨[], [{ data := b!"old" }]⟩).2.heap.map FileObj.data =
      [b!"old", b!"x", b!"yz", b!"x", b!"yz"] := by
  constructor <;> decide +kernel

end Verif
