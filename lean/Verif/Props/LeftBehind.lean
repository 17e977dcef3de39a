import Verif.Props.Conserved
import Verif.Props.HandlerErrors
/-!
# What a parse leaves behind (C128)
-/

namespace Verif
open Spec

/-- The bytes of all files. -/
def Heap.total (h : Heap) : Nat := (h.map fun o => o.data.length).sum

theorem Heap.weight_range (h : Heap) : ∀ n, h.length ≤ n → h.weight (List.range n) = h.total := by
  intro n hn
  have e : h.weight (List.range h.length) = h.total := by
    unfold Heap.weight Heap.total
    congr 1
    apply List.ext_getElem
    · simp
    · intro i h1 h2
      simp only [List.length_map, List.length_range] at h1
      simp [Heap.len, h1]
  obtain ⟨k, rfl⟩ := Nat.exists_eq_add_of_le hn
  rw [List.range_add, Heap.weight_append, e, Heap.weight_zero, Nat.add_zero]
  intro r hr
  simp only [List.mem_map, List.mem_range] at hr
  obtain ⟨x, _, rfl⟩ := hr
  exact Heap.len_new (Nat.le_add_right _ _)

theorem Heap.total_congr {h h' : Heap} (e : ∀ r, h'.len r = h.len r) : h'.total = h.total := by
  rw [← h.weight_range (max h.length h'.length) (Nat.le_max_left _ _),
    ← h'.weight_range (max h.length h'.length) (Nat.le_max_right _ _)]
  exact Heap.weight_congr fun r _ => e r

theorem Heap.total_grow {h h' : Heap} {r d : Nat} (e : ∀ x, x ≠ r → h'.len x = h.len x) (hr : h'.len r ≤ h.len r + d) :
    h'.total ≤ h.total + d := by
  rw [← h.weight_range (max h.length h'.length) (Nat.le_max_left _ _),
    ← h'.weight_range (max h.length h'.length) (Nat.le_max_right _ _)]
  have hn := List.nodup_range (n := max h.length h'.length)
  generalize List.range (max h.length h'.length) = l at hn
  induction l with
  | nil => simp [Heap.weight]
  | cons x l ih =>
    rw [List.nodup_cons] at hn
    have i1 := ih hn.2
    simp only [Heap.weight, List.map_cons, List.sum_cons] at i1 ⊢
    by_cases hx : x = r
    · subst hx
      have : h'.weight l = h.weight l := Heap.weight_congr fun y hy => e y (by rintro rfl; exact hn.1 hy)
      simp only [Heap.weight] at this
      omega
    · rw [e x hx]
      omega

theorem Heap.total_write (h : Heap) (r : Nat) (d : Bytes) :
    Heap.total (h.modify r (·.write d)).2 ≤ h.total + d.length :=
  Heap.total_grow (h.len_write r d).1 (h.len_write r d).2

/-- What a handler may have to copy: the file it keeps in memory. -/
def Builtin.pending (heap : Heap) : Builtin → Nat
  | .conv c => if c.switched then 0 else heap.weight c.memory.cur
  | _ => 0

theorem Builtin.pending_congr {heap heap' : Heap} (b : Builtin) (e : ∀ r ∈ b.refs, heap'.len r = heap.len r) :
    b.pending heap' = b.pending heap := by
  cases b with
  | memory m => rfl
  | temp t => rfl
  | conv c =>
    simp only [Builtin.pending]
    split
    · rfl
    · exact Heap.weight_congr fun r hr => e r (by simp [Builtin.refs, c.memory.cur_refs r hr])

theorem MemoryH.receive_total (m : MemoryH) (d : Bytes) (heap : Heap) :
    Heap.total (m.receive d heap).2 ≤ heap.total + d.length := by
  unfold MemoryH.receive
  split
  · simp
  · simp
  · split
    · simp
    · rename_i r hr
      have := heap.total_write r d
      split <;> (rename_i h; rw [h] at this; exact this)

theorem TempH.receive_total (t : TempH) (d : Bytes) (heap : Heap) :
    Heap.total (t.receive d heap).2 ≤ heap.total + d.length := by
  unfold TempH.receive
  split
  · simp
  · rename_i f hr
    have := heap.total_write f.ref d
    split <;> (rename_i h; rw [h] at this; exact this)

/-- The switch to a temporary file copies at most what is in memory. -/
theorem ConvH.switch_total (os : Os) (c : ConvH) (heap : Heap) :
    Heap.total (c.switch os heap).2.2 ≤ heap.total + heap.weight c.memory.cur := by
  unfold ConvH.switch
  have h1 := c.memory.fileComplete_len c.received heap
  obtain ⟨-, h2⟩ := c.memory.fileComplete_only c.received heap
  generalize c.memory.fileComplete c.received heap = z at *
  rcases z with ⟨(e | (_ | f)), heap1⟩
  · exact Nat.le_trans (Nat.le_of_eq (Heap.total_congr h1)) (Nat.le_add_right _ _)
  · exact Nat.le_trans (Nat.le_of_eq (Heap.total_congr h1)) (Nat.le_add_right _ _)
  have hf := h2 f rfl
  have hcur : c.memory.cur = [f.ref] := by
    have := c.memory.cur_length
    generalize c.memory.cur = l at *
    match l, this with
    | [], _ => cases hf
    | [_], _ => simp at hf; rw [hf]
  simp only at h1 ⊢
  split
  · exact Nat.le_trans (Nat.le_of_eq (Heap.total_congr h1)) (Nat.le_add_right _ _)
  rename_i o ho
  split
  · exact Nat.le_trans (Nat.le_of_eq (Heap.total_congr h1)) (Nat.le_add_right _ _)
  rename_i content o' hro
  have hco : content.length ≤ o.data.length ∧ o'.data = o.data := by
    unfold FileObj.readAll at hro
    split at hro
    · cases hro
    · cases hro
      exact ⟨by simp, rfl⟩
  have h3 : ∀ x, Heap.len (heap1.set f.ref o') x = heap.len x := fun x =>
    (Heap.len_set ho (by rw [hco.2]) x).trans (h1 x)
  have n1 := TempH.newFile_len os { hasSettings := true } { f.args with contentLength := some 0 } (heap1.set f.ref o')
  generalize TempH.newFile os { hasSettings := true } { f.args with contentLength := some 0 } (heap1.set f.ref o') = z at *
  rcases z with ⟨(e | _), t, heap2⟩
  · exact Nat.le_trans (Nat.le_of_eq (Heap.total_congr fun r => (n1 r).trans (h3 r))) (Nat.le_add_right _ _)
  simp only at n1 ⊢
  have g1 := t.receive_total content heap2
  have hw : content.length ≤ heap.weight c.memory.cur := by
    rw [hcur]
    have e2 := h1 f.ref
    simp only [Heap.len, ho, Option.map_some, Option.getD_some] at e2
    simp [Heap.weight, Heap.len]
    omega
  have ht : heap2.total = heap.total := Heap.total_congr fun r => (n1 r).trans (h3 r)
  generalize t.receive content heap2 = z at *
  rcases z with ⟨(e | _), heap3⟩ <;> (simp only at g1 ⊢; omega)

theorem receive_total (os : Os) (d : Bytes) (b : Builtin) (heap : Heap) :
    Heap.total (b.receive os d heap).2.2 + (b.receive os d heap).2.1.pending (b.receive os d heap).2.2 ≤
      heap.total + b.pending heap + 2 * d.length := by
  cases b with
  | memory m =>
    have := m.receive_total d heap
    simp only [Builtin.receive, Builtin.pending]
    omega
  | temp t =>
    have := t.receive_total d heap
    simp only [Builtin.receive, Builtin.pending]
    omega
  | conv c =>
    simp only [Builtin.receive, ConvH.receive]
    cases hm : c.fileMax with
    | none => exact Nat.le_add_right _ _
    | some limit =>
      simp only
      have key : ∀ x c1 heap1, (if c.switched = false ∧ (c.received : Int) + d.length > limit then c.switch os heap
            else (.ok (), c, heap) : Res (ConvH × Heap) Unit) = (x, c1, heap1) →
          heap1.total + (Builtin.conv c1).pending heap1 ≤ heap.total + (Builtin.conv c).pending heap := by
        intro x c1 heap1 he
        by_cases hs : c.switched = false ∧ (c.received : Int) + d.length > limit
        · rw [if_pos hs] at he
          obtain ⟨s1, s2, s3, s4⟩ := c.switch_only os heap
          obtain ⟨g1, g2, g3⟩ := c.switch_grows os heap
          have g4 := c.switch_total os heap
          rw [he] at s3 s4 g3 g4
          simp only at s3 s4 g3 g4
          by_cases hx : x = .ok ()
          · obtain ⟨t1, -, -⟩ := s4 hx
            simp only [Builtin.pending, t1, hs.1, if_true, Bool.false_eq_true, if_false]
            omega
          · have := s3 hx
            subst this
            rw [Heap.total_congr (g3 hx), (Builtin.conv c1).pending_congr fun r _ => g3 hx r]
        · rw [if_neg hs] at he
          cases he
          exact Nat.le_refl _
      generalize hz : (if c.switched = false ∧ (c.received : Int) + d.length > limit then c.switch os heap
            else (.ok (), c, heap) : Res (ConvH × Heap) Unit) = z at *
      rcases z with ⟨(e | _), c1, heap1⟩
      · exact Nat.le_trans (key _ _ _ rfl) (Nat.le_add_right _ _)
      · have k := key _ _ _ rfl
        simp only
        have hr : ∀ x heap2, (if c1.switched then c1.temp.receive d heap1 else c1.memory.receive d heap1) = (x, heap2) →
            heap2.total + (Builtin.conv c1).pending heap2 ≤ heap1.total + (Builtin.conv c1).pending heap1 + 2 * d.length := by
          intro x heap2 he
          simp only [Builtin.pending]
          split at he
          · have := c1.temp.receive_total d heap1
            rw [he] at this
            rw [if_pos ‹_›, if_pos ‹_›]
            simp only at this
            omega
          · have h1 := c1.memory.receive_total d heap1
            have h2 := (c1.memory.receive_grows d heap1).1.weight
            rw [he] at h1 h2
            rw [if_neg ‹_›, if_neg ‹_›]
            simp only at h1 h2
            omega
        generalize (if c1.switched then c1.temp.receive d heap1 else c1.memory.receive d heap1) = z at *
        rcases z with ⟨(e | _), heap2⟩
        · have := hr _ _ rfl
          simp only [Builtin.pending] at this k ⊢
          omega
        · have := hr _ _ rfl
          simp only [Builtin.pending] at this k ⊢
          omega

theorem newFile_pending (os : Os) (a : NewFileArgs) (b : Builtin) (heap : Heap) :
    (b.newFile os a heap).2.1.pending (b.newFile os a heap).2.2 ≤ b.pending heap := by
  cases b with
  | memory m => exact Nat.le_refl _
  | temp t => exact Nat.le_refl _
  | conv c =>
    simp only [Builtin.newFile, ConvH.newFile]
    by_cases hs : c.switched = true
    · simp [hs, Builtin.pending]
    · simp only [hs, Bool.false_eq_true, if_false, Builtin.pending]
      obtain ⟨-, -, -, -, n5, n6⟩ := c.memory.newFile_only a heap
      have nl := c.memory.newFile_len a heap
      by_cases hr : (c.memory.newFile a heap).1 = .ok () ∨ (c.memory.newFile a heap).1 = .error .stopFutureHandlers
      · rw [Heap.weight_zero]
        · exact Nat.zero_le _
        · intro r hm
          rw [nl r]
          exact Heap.len_new (n5 hr r hm)
      · rw [Heap.weight_congr fun r _ => nl r]
        have : (c.memory.newFile a heap).2.1.cur = c.memory.cur := by
          generalize c.memory = m at *
          obtain ⟨args, act, file⟩ := m
          rcases act with _ | _ | _
          all_goals first | rfl | (exfalso; simp [MemoryH.newFile] at hr)
        rw [this]

/-! ### The world -/

/-- All bytes in files, and those that may have to be copied. -/
def BWorld.load (w : BWorld) : Nat := w.heap.total + (w.hs.map (·.pending w.heap)).sum

/-- Every handler has its own files. -/
structure Owned (w : BWorld) : Prop where
  below : ∀ b ∈ w.hs, ∀ r ∈ b.refs, r < w.heap.length
  apart : w.hs.Pairwise (fun a b => ∀ r ∈ a.refs, r ∉ b.refs)

/-- At most `2 * k` bytes have been added to the `n0` bytes there were. -/
def Burden (n0 : Nat) (k : Nat) (w : BWorld) (_ : List Uploaded) : Prop := Owned w ∧ w.load ≤ n0 + 2 * k

theorem Owned.step {pre post : List Builtin} {b b' : Builtin} {heap heap' : Heap} {d : Nat}
    (h : Owned ⟨pre ++ b :: post, heap⟩) (hm : Moves b heap b' heap')
    (hg : heap'.total + b'.pending heap' ≤ heap.total + b.pending heap + d) :
    Owned ⟨pre ++ b' :: post, heap'⟩ ∧
    BWorld.load ⟨pre ++ b' :: post, heap'⟩ ≤ BWorld.load ⟨pre ++ b :: post, heap⟩ + d := by
  obtain ⟨h1, h2⟩ := h
  simp only at h1 h2
  rw [List.pairwise_append, List.pairwise_cons] at h2
  obtain ⟨p1, ⟨p2, p3⟩, p4⟩ := h2
  refine ⟨⟨?_, ?_⟩, ?_⟩
  · intro x hx r hr
    have := hm.len
    simp only [List.mem_append, List.mem_cons] at hx
    rcases hx with hx | rfl | hx
    · exact Nat.lt_of_lt_of_le (h1 x (by simp [hx]) r hr) this
    · rcases hm.refs r hr with h | h
      · exact Nat.lt_of_lt_of_le (h1 b (by simp) r h) this
      · exact h.2
    · exact Nat.lt_of_lt_of_le (h1 x (by simp [hx]) r hr) this
  · simp only
    rw [List.pairwise_append, List.pairwise_cons]
    refine ⟨p1, ⟨?_, p3⟩, ?_⟩
    · intro x hx r hr hr'
      rcases hm.refs r hr with h | h
      · exact p2 x hx r h hr'
      · have := h1 x (by simp [hx]) r hr'
        omega
    · intro x hx y hy r hr hr'
      rcases List.mem_cons.1 hy with rfl | hy
      · rcases hm.refs r hr' with h | h
        · exact p4 x hx b (by simp) r hr h
        · have := h1 x (by simp [hx]) r hr
          omega
      · exact p4 x hx y (by simp [hy]) r hr hr'
  · have same : ∀ l : List Builtin, (∀ x ∈ l, x ∈ pre ++ b :: post ∧ ∀ r ∈ x.refs, r ∉ b.refs) →
        l.map (·.pending heap') = l.map (·.pending heap) := by
      intro l hl
      refine List.map_congr_left fun x hx => x.pending_congr fun r hr => ?_
      have := hm.kept r (h1 x (hl x hx).1 r hr) ((hl x hx).2 r hr)
      simp only [Heap.len, this]
    have e1 := same pre (fun x hx => ⟨by simp [hx], fun r hr => p4 x hx b (by simp) r hr⟩)
    have e2 := same post (fun x hx => ⟨by simp [hx], fun r hr hr' => p2 x hx r hr' hr⟩)
    simp only [BWorld.load, List.map_append, List.map_cons, List.sum_append, List.sum_cons, e1, e2]
    omega

section
variable {ρ : Type} {os : Os} {n : Nat}

/-- One step of a handler. -/
theorem on_owned {α : Type} (w : BWorld) (i : Nat) (f : Builtin → Heap → Res (Builtin × Heap) α) (d : Nat)
    (hm : ∀ b heap, Moves b heap (f b heap).2.1 (f b heap).2.2)
    (hg : ∀ b heap, Heap.total (f b heap).2.2 + (f b heap).2.1.pending (f b heap).2.2 ≤ heap.total + b.pending heap + d)
    (h : Owned w) : Owned (w.on i f).2 ∧ (w.on i f).2.load ≤ w.load + d := by
  rcases on_cases w i f with ⟨e, -⟩ | ⟨pre, b, post, e1, -, e2⟩
  · rw [e]; exact ⟨h, Nat.le_add_right _ _⟩
  · rw [e2]
    obtain ⟨hs, heap⟩ := w
    simp only at e1
    subst e1
    exact h.step (hm b heap) (hg b heap)

theorem builtin_burden (hos : ∀ x, os.tempFile x ≠ .error .stopFutureHandlers) (n0 : Nat) :
    (builtinOps ρ os n).Weighs (Burden n0) (Burden n0) where
  mono k m w fs hkm h := ⟨h.1, by have := h.2; omega⟩
  monoIdle k m w fs hkm h := ⟨h.1, by have := h.2; omega⟩
  perm k w fs fs' _ h := h
  idle k w fs h := h
  newFiles k a w fs h := by
    have key : ∀ (is : List Nat) w, Burden n0 k w fs → Burden n0 k (newFiles (builtinOps ρ os n) a is w).2 fs := by
      intro is
      induction is with
      | nil => intro w h; exact h
      | cons i is ih =>
        intro w h
        have h1 : Burden n0 k ((builtinOps ρ os n).newFile i a w).2 fs := by
          have := on_owned w i (fun b h => b.newFile os a h) 0 (fun b heap => (newFile_moves os hos a b heap).1)
            (fun b heap => by
              have e := Heap.total_congr (newFile_len os a b heap)
              have := newFile_pending os a b heap
              omega) h.1
          exact ⟨this.1, Nat.le_trans this.2 h.2⟩
        unfold newFiles
        generalize (builtinOps ρ os n).newFile i a w = z at *
        rcases z with ⟨(e | _), w'⟩
        · cases e <;> exact h1
        · exact ih w' h1
    exact ⟨key _ w h, fun _ => key _ w h⟩
  receive k i d c w fs h := by
    have := on_owned w i (fun b h => b.receive os d h) (2 * d.length) (fun b heap => (receive_moves os d b heap).1)
      (fun b heap => receive_total os d b heap) h.1
    exact ⟨this.1, by have := this.2; have := h.2; simp only [builtinOps]; omega⟩
  passes k i d c w fs d' h hd := by
    simp only [builtinOps] at hd ⊢
    rcases on_cases w i (fun b hp => b.receive os d hp) with ⟨e, e'⟩ | ⟨pre, b, post, e1, -, e2⟩
    · rw [e'] at hd; cases hd
    · rw [e2] at hd ⊢
      obtain ⟨hs, heap⟩ := w
      simp only at e1
      subst e1
      obtain ⟨g1, g2, g3⟩ := (receive_grows os d b heap).2 d' hd
      simp only at g2 g3 ⊢
      rw [g1, g2, g3]
      exact ⟨Nat.le_refl _, h⟩
  fileComplete k i c w fs h := by
    have := on_owned w i (fun b h => b.fileComplete c h) 0 (fun b heap => (fileComplete_moves c b heap).1)
      (fun b heap => by
        have e := Heap.total_congr (fileComplete_len c b heap)
        have : (b.fileComplete c heap).2.1.pending (b.fileComplete c heap).2.2 = b.pending heap := by
          have hp := b.pending_congr fun r _ => fileComplete_len c b heap r
          rw [← hp]
          cases b with
          | memory m => rfl
          | temp t => rfl
          | conv v =>
            simp only [Builtin.fileComplete, ConvH.fileComplete]
            by_cases hs : v.switched = true
            · simp [hs, Builtin.pending]
            · simp [hs]
        omega) h.1
    exact ⟨this.1, Nat.le_trans this.2 h.2⟩
  complete k i c w fs f h _ := by
    have := on_owned w i (fun b h => b.fileComplete c h) 0 (fun b heap => (fileComplete_moves c b heap).1)
      (fun b heap => by
        have e := Heap.total_congr (fileComplete_len c b heap)
        have : (b.fileComplete c heap).2.1.pending (b.fileComplete c heap).2.2 = b.pending heap := by
          have hp := b.pending_congr fun r _ => fileComplete_len c b heap r
          rw [← hp]
          cases b with
          | memory m => rfl
          | temp t => rfl
          | conv v =>
            simp only [Builtin.fileComplete, ConvH.fileComplete]
            by_cases hs : v.switched = true
            · simp [hs, Builtin.pending]
            · simp [hs]
        omega) h.1
    exact ⟨this.1, Nat.le_trans this.2 h.2⟩
  uploadComplete k i w fs h := h
  close k i w fs h := by
    have := on_owned w i (fun b h => ((.ok (), b, b.close h) : Res (Builtin × Heap) Unit)) 0
      (fun b heap => close_moves b heap)
      (fun b heap => by
        have e := Heap.total_congr (close_len b heap)
        have := b.pending_congr fun r _ => close_len b heap r
        simp only
        omega) h.1
    exact ⟨this.1, Nat.le_trans this.2 h.2⟩

end

theorem owned_new {hs : List Builtin} (heap : Heap) (h : ∀ b ∈ hs, b.refs = []) : Owned ⟨hs, heap⟩ := by
  refine ⟨fun b hb r hr => ?_, List.Pairwise.imp_of_mem (R := fun _ _ => True) (fun ha _ _ r hr => ?_) (List.pairwise_of_forall fun _ _ => trivial)⟩
  · rw [h b hb] at hr; cases hr
  · rw [h _ ha] at hr; cases hr

theorem load_new {hs : List Builtin} (heap : Heap) (h : ∀ b ∈ hs, b.refs = []) :
    BWorld.load ⟨hs, heap⟩ = heap.total := by
  have : ∀ b ∈ hs, b.pending heap = 0 := by
    intro b hb
    cases b with
    | memory m => rfl
    | temp t => rfl
    | conv c =>
      simp only [Builtin.pending]
      split
      · rfl
      · apply Heap.weight_zero
        intro r hr
        have := h _ hb
        rw [Builtin.refs] at this
        have hm := c.memory.cur_refs r hr
        rw [List.append_eq_nil_iff.1 this |>.1] at hm
        cases hm
  simp only [BWorld.load]
  rw [List.map_congr_left (g := fun _ => 0) this]
  simp

/-! ### Examples -/

/-- **C128 is false about what is left behind.** The disk is full while a file is written: `parse` raises the
`IOError`, and the temporary file stays open; nobody closes it. -/
theorem C128_leaves_file : (match fullRun.1 with | .error e => some e | .ok _ => none) = some .ioError ∧
    fullRun.2.2.1.heap.map (·.closed) = [false] := by
  constructor <;> decide +kernel

/-- `fileBody` with a temporary file, when no field is allowed. -/
def refusedRun := (⟨b!"B", 3, 100⟩ : MultiPart).run latinCodecs { maxFields := some 0 } (builtinOps Source goodOs 1) 100
  false (LazyStream.mk' ⟨[fileBody]⟩) { hs := [.temp {}] }

/-- **C128 is false about what is left behind**, also when it is not a handler that fails: the form has too many
fields, and the temporary file that was complete before stays open, although it is in no result. -/
theorem C128_refused_leaves_file :
    (match refusedRun.1 with | .error e => some e | .ok _ => none) = some .tooManyFieldsSent ∧
    refusedRun.2.2.heap.map (fun o => (o.closed, o.data)) = [(false, b!"hello")] := by
  constructor <;> decide +kernel

/-- A request with a file and then a field. -/
def refusedRequest : Bytes :=
  b!"POST http://h/p HTTP/1.1\r\nContent-Type: multipart/form-data; boundary=B\r\nContent-Length: 50\r\n\r\n" ++
  b!"--B\r\nContent-Disposition: form-data; name=\"a\"; filename=f\r\n\r\nxyz\r\n" ++
  b!"--B\r\nContent-Disposition: form-data; name=\"b\"\r\n\r\nyz\r\n--B--"

/-- The request is parsed with a temporary file and when no field is allowed. -/
def refusedParse := parseRequest (namedEnv Source pyCodecs [] goodOs sampleModules
    [b!"request_parser.files.uploadhandler.TemporaryFileUploadHandler"] 0) { maxFields := some 0 }
  ((Req.new pyCodecs {} ⟨[refusedRequest]⟩).toOption.getD { stream := LazyStream.mk' ⟨[]⟩ }) ⟨[], []⟩

/-- **C128 is false of the code**: parsing fails, closing the request succeeds, and the temporary file is still open. -/
theorem C128_close_leaves_file :
    (match refusedParse.1 with | .error e => some e | .ok _ => none) = some .tooManyFieldsSent ∧
    ((refusedParse.2.2.1.close (fun _ => false) refusedParse.2.2.2.heap).1.toOption = some ()) ∧
    (refusedParse.2.2.1.close (fun _ => false) refusedParse.2.2.2.heap).2.map (fun o => (o.closed, o.data)) =
      [(false, b!"xyz")] := by
  decide +kernel

/-- A file of 1200 bytes. -/
def longBody : Bytes :=
  b!"--B\r\nContent-Disposition: form-data; name=\"f\"; filename=\"a.txt\"\r\n\r\n" ++ List.replicate 1200 120 ++ b!"\r\n--B--"

/-- Files can take more bytes than the body has: what was in memory is copied to the temporary file. -/
example : longBody.length = 1274 ∧ (((⟨b!"B", 64, 2000⟩ : MultiPart).parse latinCodecs { fileMaxMemory := 1180 }
    (builtinOps Source goodOs 1) 100 (LazyStream.mk' ⟨[longBody]⟩) { hs := [.conv {}] }).2.2.heap.map (·.data.length)) =
    [1140, 1200] := by decide +kernel

end Verif
