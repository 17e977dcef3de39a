import Verif.Proofs.Weigh
import Verif.Props.Isolated
import Verif.Props.Robust
/-!
# A form has no more bytes than the body (C119)
-/

namespace Verif
open Spec

/-- The length of the file at an address. -/
def Heap.len (h : Heap) (r : Nat) : Nat := ((h[r]?).map fun o => o.data.length).getD 0

/-- The length of the files at some addresses, together. -/
def Heap.weight (h : Heap) (l : List Nat) : Nat := (l.map h.len).sum

theorem Heap.weight_append (h : Heap) (a b : List Nat) : h.weight (a ++ b) = h.weight a + h.weight b := by
  simp [Heap.weight]

theorem Heap.weight_perm (h : Heap) {a b : List Nat} (hp : a.Perm b) : h.weight a = h.weight b :=
  (hp.map _).sum_nat

theorem Heap.weight_congr {h h' : Heap} {l : List Nat} (e : ∀ r ∈ l, h'.len r = h.len r) : h'.weight l = h.weight l := by
  unfold Heap.weight
  rw [List.map_congr_left e]

theorem Heap.weight_zero {h : Heap} {l : List Nat} (e : ∀ r ∈ l, h.len r = 0) : h.weight l = 0 := by
  unfold Heap.weight
  rw [List.map_congr_left e]
  simp

theorem Heap.len_append (h : Heap) (r : Nat) : Heap.len (h ++ [({} : FileObj)]) r = h.len r := by
  unfold Heap.len
  rcases Nat.lt_trichotomy r h.length with hr | hr | hr
  · rw [List.getElem?_append_left hr]
  · subst hr; simp
  · rw [List.getElem?_eq_none (by simp; omega), List.getElem?_eq_none (by omega)]

theorem Heap.len_new {h : Heap} {r : Nat} (hr : h.length ≤ r) : h.len r = 0 := by
  simp [Heap.len, List.getElem?_eq_none hr]

theorem Heap.len_set {h : Heap} {r : Nat} {o o' : FileObj} (ho : h[r]? = some o) (e : o'.data.length = o.data.length)
    (x : Nat) : Heap.len (h.set r o') x = h.len x := by
  unfold Heap.len
  by_cases hx : x = r
  · subst hx
    obtain ⟨hi, -⟩ := List.getElem?_eq_some_iff.1 ho
    simp [List.getElem?_set_self hi, ho, e]
  · rw [List.getElem?_set_ne (Ne.symm hx)]

theorem Heap.len_modify (h : Heap) (r : Nat) (f : FileObj → Except Exc FileObj)
    (hf : ∀ o o', f o = .ok o' → o'.data.length = o.data.length) (x : Nat) : Heap.len (h.modify r f).2 x = h.len x := by
  unfold Heap.modify
  split
  · rfl
  · next o ho =>
    split
    · rfl
    · next o' ho' => exact Heap.len_set ho (hf _ _ ho') x

theorem rewind_length (o o' : FileObj) (h : o.rewind = .ok o') : o'.data.length = o.data.length := by
  unfold FileObj.rewind at h
  split at h
  · cases h
  · cases h; rfl

theorem write_length {o o' : FileObj} {d : Bytes} (h : o.write d = .ok o') : o'.data.length ≤ o.data.length + d.length := by
  unfold FileObj.write at h
  split at h
  · cases h
  · cases h
    simp
    omega

theorem Heap.len_write (h : Heap) (r : Nat) (d : Bytes) :
    (∀ x, x ≠ r → Heap.len (h.modify r (·.write d)).2 x = h.len x) ∧
    Heap.len (h.modify r (·.write d)).2 r ≤ h.len r + d.length := by
  unfold Heap.modify
  split
  · exact ⟨fun _ _ => rfl, Nat.le_add_right _ _⟩
  · next o ho =>
    split
    · exact ⟨fun _ _ => rfl, Nat.le_add_right _ _⟩
    · next o' ho' =>
      refine ⟨fun x hx => by simp [Heap.len, List.getElem?_set_ne (Ne.symm hx)], ?_⟩
      obtain ⟨hi, -⟩ := List.getElem?_eq_some_iff.1 ho
      simp only [Heap.len, List.getElem?_set_self hi, ho]
      exact write_length ho'

/-! ### The handlers -/

theorem MemoryH.newFile_len (m : MemoryH) (a : NewFileArgs) (heap : Heap) (x : Nat) :
    Heap.len (m.newFile a heap).2.2 x = heap.len x := by
  obtain ⟨args, act, file⟩ := m
  rcases act with _ | _ | _
  · rfl
  · rfl
  · exact Heap.len_append _ _

theorem TempH.newFile_len (os : Os) (t : TempH) (a : NewFileArgs) (heap : Heap) (x : Nat) :
    Heap.len (t.newFile os a heap).2.2 x = heap.len x := by
  unfold TempH.newFile
  simp only
  split
  · rfl
  · split
    · rfl
    · exact Heap.len_append _ _

theorem newFile_len (os : Os) (a : NewFileArgs) (b : Builtin) (heap : Heap) (x : Nat) :
    Heap.len (b.newFile os a heap).2.2 x = heap.len x := by
  cases b with
  | memory m => exact m.newFile_len a heap x
  | temp t => exact t.newFile_len os a heap x
  | conv c =>
    simp only [Builtin.newFile, ConvH.newFile]
    split
    · exact c.temp.newFile_len os a heap x
    · exact c.memory.newFile_len a heap x

theorem MemoryH.fileComplete_len (m : MemoryH) (n : Nat) (heap : Heap) (x : Nat) :
    Heap.len (m.fileComplete n heap).2 x = heap.len x := by
  unfold MemoryH.fileComplete
  split
  · rfl
  · rfl
  · split
    · rename_i r args hr _
      have := Heap.len_modify heap r (·.rewind) rewind_length x
      split <;> (rename_i h; rw [h] at this; exact this)
    · rfl

theorem TempH.fileComplete_len (t : TempH) (n : Nat) (heap : Heap) (x : Nat) :
    Heap.len (t.fileComplete n heap).2.2 x = heap.len x := by
  unfold TempH.fileComplete
  split
  · rfl
  · rename_i g hg
    have := Heap.len_modify heap g.ref (·.rewind) rewind_length x
    split <;> (rename_i h; rw [h] at this; exact this)

theorem fileComplete_len (n : Nat) (b : Builtin) (heap : Heap) (x : Nat) :
    Heap.len (b.fileComplete n heap).2.2 x = heap.len x := by
  cases b with
  | memory m => exact m.fileComplete_len n heap x
  | temp t => exact t.fileComplete_len n heap x
  | conv c =>
    simp only [Builtin.fileComplete, ConvH.fileComplete]
    split
    · exact c.temp.fileComplete_len n heap x
    · exact c.memory.fileComplete_len n heap x

theorem close_len (b : Builtin) (heap : Heap) (x : Nat) : Heap.len (b.close heap) x = heap.len x := by
  have key : ∀ r, Heap.len (match heap[r]? with
      | none => heap
      | some o => heap.set r { o with closed := true }) x = heap.len x := by
    intro r
    split
    · rfl
    · next o ho => exact Heap.len_set ho (by rfl) x
  cases b with
  | memory m =>
    simp only [Builtin.close]
    split
    · exact key _
    · rfl
  | temp t =>
    simp only [Builtin.close]
    split
    · exact key _
    · rfl
  | conv c => rfl

theorem MemoryH.cur_length (m : MemoryH) : m.cur.length ≤ 1 := by
  unfold MemoryH.cur MemoryH.refs
  split
  · cases m.file <;> simp
  · simp

theorem TempH.refs_length (t : TempH) : t.refs.length ≤ 1 := by
  unfold TempH.refs
  cases t.file <;> simp

/-- A handler returns one file at most. -/
theorem Builtin.cur_length (b : Builtin) : b.cur.length ≤ 1 := by
  cases b with
  | memory m => exact m.cur_length
  | temp t => exact t.refs_length
  | conv c =>
    simp only [Builtin.cur]
    split
    · exact c.temp.refs_length
    · exact c.memory.cur_length

theorem Builtin.cur_nodup (b : Builtin) : b.cur.Nodup := by
  have := b.cur_length
  generalize b.cur = l at *
  match l, this with
  | [], _ => simp
  | [_], _ => simp

/-- What a chunk does to the lengths of the files: those that the handler would not return keep theirs, and the one
that it would return grows by the chunk at most. -/
structure FileGrows (cur cur' : List Nat) (heap heap' : Heap) (n : Nat) : Prop where
  kept : ∀ r, r < heap.length → r ∉ cur → heap'.len r = heap.len r
  weight : heap'.weight cur' ≤ heap.weight cur + n

theorem FileGrows.refl (cur : List Nat) (heap : Heap) (n : Nat) : FileGrows cur cur heap heap n :=
  ⟨fun _ _ _ => rfl, Nat.le_add_right _ _⟩

theorem MemoryH.receive_grows (m : MemoryH) (d : Bytes) (heap : Heap) :
    FileGrows m.cur m.cur heap (m.receive d heap).2 d.length ∧
    ∀ d', (m.receive d heap).1 = .ok (some d') → d' = d ∧ (m.receive d heap).2 = heap := by
  unfold MemoryH.receive
  split
  · exact ⟨.refl _ _ _, by simp⟩
  · exact ⟨.refl _ _ _, by simp⟩
  · rename_i ha
    split
    · exact ⟨.refl _ _ _, by simp⟩
    · rename_i r hr
      obtain ⟨h1, h2⟩ := heap.len_write r d
      have hc : m.cur = [r] := by simp [MemoryH.cur, ha, MemoryH.refs, hr]
      have : FileGrows m.cur m.cur heap (heap.modify r (·.write d)).2 d.length := by
        rw [hc]
        exact ⟨fun x _ hx => h1 x (by simpa using hx), by simpa [Heap.weight] using h2⟩
      split <;> (rename_i h; rw [h] at this; exact ⟨this, by simp⟩)

theorem TempH.receive_grows (t : TempH) (d : Bytes) (heap : Heap) :
    FileGrows t.refs t.refs heap (t.receive d heap).2 d.length ∧
    ∀ d', (t.receive d heap).1 ≠ .ok (some d') := by
  unfold TempH.receive
  split
  · exact ⟨.refl _ _ _, by simp⟩
  · rename_i f hr
    obtain ⟨h1, h2⟩ := heap.len_write f.ref d
    have hc : t.refs = [f.ref] := by simp [TempH.refs, hr]
    have : FileGrows t.refs t.refs heap (heap.modify f.ref (·.write d)).2 d.length := by
      rw [hc]
      exact ⟨fun x _ hx => h1 x (by simpa using hx), by simpa [Heap.weight] using h2⟩
    split <;> (rename_i h; rw [h] at this; exact ⟨this, by simp⟩)

theorem TempH.receive_fails (t : TempH) (d : Bytes) (heap : Heap) (e : Exc) (h : (t.receive d heap).1 = .error e) :
    (t.receive d heap).2 = heap := by
  unfold TempH.receive Heap.modify at h ⊢
  cases ht : t.file with
  | none => rfl
  | some f =>
    rw [ht] at h
    simp only at h ⊢
    cases hf : heap[f.ref]? with
    | none => rfl
    | some o =>
      rw [hf] at h
      simp only at h ⊢
      cases hw : o.write d with
      | error e => rfl
      | ok o' => rw [hw] at h; cases h

/-- The switch to a temporary file copies at most what there is in memory. -/
theorem ConvH.switch_grows (os : Os) (c : ConvH) (heap : Heap) :
    (∀ r, r < heap.length → Heap.len (c.switch os heap).2.2 r = heap.len r) ∧
    ((c.switch os heap).1 = .ok () →
      Heap.weight (c.switch os heap).2.2 (c.switch os heap).2.1.temp.refs ≤ heap.weight c.memory.cur) ∧
    ((c.switch os heap).1 ≠ .ok () → ∀ r, Heap.len (c.switch os heap).2.2 r = heap.len r) := by
  unfold ConvH.switch
  have h1 := c.memory.fileComplete_len c.received heap
  obtain ⟨h0, h2⟩ := c.memory.fileComplete_only c.received heap
  generalize c.memory.fileComplete c.received heap = z at *
  rcases z with ⟨(e | (_ | f)), heap1⟩
  · exact ⟨fun r _ => h1 r, by simp, fun _ => h1⟩
  · exact ⟨fun r _ => h1 r, by simp, fun _ => h1⟩
  have hf := h2 f rfl
  have hcur : c.memory.cur = [f.ref] := by
    have := c.memory.cur_length
    generalize c.memory.cur = l at *
    match l, this with
    | [], _ => cases hf
    | [_], _ => simp at hf; rw [hf]
  simp only at h1 ⊢
  split
  · exact ⟨fun r _ => h1 r, by simp, fun _ => h1⟩
  rename_i o ho
  split
  · exact ⟨fun r _ => h1 r, by simp, fun _ => h1⟩
  rename_i content o' hro
  have hco : content.length ≤ o.data.length ∧ o'.data = o.data := by
    unfold FileObj.readAll at hro
    split at hro
    · cases hro
    · cases hro
      exact ⟨by simp, rfl⟩
  have h3 : ∀ x, Heap.len (heap1.set f.ref o') x = heap.len x := fun x =>
    (Heap.len_set ho (by rw [hco.2]) x).trans (h1 x)
  have hlen : heap.length ≤ (heap1.set f.ref o').length := by simpa using h0.len
  have n1 := TempH.newFile_len os { hasSettings := true } { f.args with contentLength := some 0 } (heap1.set f.ref o')
  obtain ⟨n0, -, n3, -⟩ := TempH.newFile_only os { hasSettings := true } { f.args with contentLength := some 0 } (heap1.set f.ref o')
  generalize TempH.newFile os { hasSettings := true } { f.args with contentLength := some 0 } (heap1.set f.ref o') = z at *
  rcases z with ⟨(e | _), t, heap2⟩
  · exact ⟨fun r _ => (n1 r).trans (h3 r), by simp, fun _ r => (n1 r).trans (h3 r)⟩
  simp only at n0 n1 n3 ⊢
  have n2 := n3 trivial
  obtain ⟨g1, -⟩ := t.receive_grows content heap2
  have g2 := t.receive_fails content heap2
  obtain ⟨h5, h6⟩ : (∀ r, r < heap.length → Heap.len (t.receive content heap2).2 r = heap.len r) ∧
      Heap.weight (t.receive content heap2).2 t.refs ≤ heap.weight c.memory.cur := by
    constructor
    · intro r hr
      have : r ∉ t.refs := fun h => by have := n2 r h; omega
      have := n0.len
      rw [g1.kept r (by omega) ‹_›, n1, h3]
    · refine Nat.le_trans g1.weight ?_
      have : heap2.weight t.refs = 0 := by
        exact Heap.weight_zero fun r hr => (n1 r).trans (Heap.len_new (n2 r hr))
      rw [this, hcur]
      have e2 := h1 f.ref
      simp only [Heap.len, ho, Option.map_some, Option.getD_some] at e2
      simp [Heap.weight, Heap.len]
      omega
  generalize t.receive content heap2 = z at *
  rcases z with ⟨(e | _), heap3⟩
  · have := g2 e rfl
    subst this
    exact ⟨h5, by simp, fun _ r => (n1 r).trans (h3 r)⟩
  · exact ⟨h5, fun _ => h6, by simp⟩

theorem receive_grows (os : Os) (d : Bytes) (b : Builtin) (heap : Heap) :
    FileGrows b.cur (b.receive os d heap).2.1.cur heap (b.receive os d heap).2.2 d.length ∧
    ∀ d', (b.receive os d heap).1 = .ok (some d') →
      d' = d ∧ (b.receive os d heap).2.1 = b ∧ (b.receive os d heap).2.2 = heap := by
  cases b with
  | memory m =>
    obtain ⟨h1, h2⟩ := m.receive_grows d heap
    exact ⟨h1, fun d' h => ⟨(h2 d' h).1, rfl, (h2 d' h).2⟩⟩
  | temp t =>
    obtain ⟨h1, h2⟩ := t.receive_grows d heap
    exact ⟨h1, fun d' h => absurd h (h2 d')⟩
  | conv c =>
    simp only [Builtin.receive, ConvH.receive]
    cases hm : c.fileMax with
    | none => exact ⟨.refl _ _ _, by simp⟩
    | some limit =>
      simp only
      -- what holds after the possible switch
      have key : ∀ x c1 heap1, (if c.switched = false ∧ (c.received : Int) + d.length > limit then c.switch os heap
            else (.ok (), c, heap) : Res (ConvH × Heap) Unit) = (x, c1, heap1) →
          FileGrows (Builtin.conv c).cur (Builtin.conv c1).cur heap heap1 0 ∧ heap.length ≤ heap1.length ∧
          (∀ r ∈ (Builtin.conv c1).cur, r ∈ (Builtin.conv c).cur ∨ heap.length ≤ r) := by
        intro x c1 heap1 he
        by_cases hs : c.switched = false ∧ (c.received : Int) + d.length > limit
        · rw [if_pos hs] at he
          obtain ⟨s1, s2, s3, s4⟩ := c.switch_only os heap
          obtain ⟨g1, g2, g3⟩ := c.switch_grows os heap
          rw [he] at s1 s2 s3 s4 g1 g2 g3
          simp only at s1 s2 s3 s4 g1 g2 g3
          by_cases hx : x = .ok ()
          · obtain ⟨t1, t2, t3⟩ := s4 hx
            refine ⟨⟨fun r hr _ => g1 r hr, ?_⟩, s1.len, ?_⟩
            · simpa only [Builtin.cur, t1, hs.1, if_true, Bool.false_eq_true, if_false, Nat.add_zero] using g2 hx
            · intro r hr
              simp only [Builtin.cur, t1, if_true] at hr
              exact .inr (t3 r hr).1
          · have := s3 hx
            subst this
            refine ⟨⟨fun r hr _ => g1 r hr, ?_⟩, s1.len, fun r hr => .inl hr⟩
            rw [Heap.weight_congr fun r _ => g3 hx r]
            exact Nat.le_refl _
        · rw [if_neg hs] at he
          cases he
          exact ⟨.refl _ _ _, Nat.le_refl _, fun r hr => .inl hr⟩
      generalize hz : (if c.switched = false ∧ (c.received : Int) + d.length > limit then c.switch os heap
            else (.ok (), c, heap) : Res (ConvH × Heap) Unit) = z at *
      rcases z with ⟨(e | _), c1, heap1⟩
      · obtain ⟨k1, -, -⟩ := key _ _ _ rfl
        exact ⟨⟨k1.kept, Nat.le_trans k1.weight (by omega)⟩, by simp⟩
      · obtain ⟨k1, k2, k3⟩ := key _ _ _ rfl
        simp only
        have hr : ∀ x heap2, (if c1.switched then c1.temp.receive d heap1 else c1.memory.receive d heap1) = (x, heap2) →
            FileGrows (Builtin.conv c1).cur (Builtin.conv c1).cur heap1 heap2 d.length := by
          intro x heap2 he
          simp only [Builtin.cur]
          split at he
          · have := (c1.temp.receive_grows d heap1).1
            rw [he] at this
            rwa [if_pos ‹_›]
          · have := (c1.memory.receive_grows d heap1).1
            rw [he] at this
            rwa [if_neg ‹_›]
        have comb : ∀ heap2, FileGrows (Builtin.conv c1).cur (Builtin.conv c1).cur heap1 heap2 d.length →
            FileGrows (Builtin.conv c).cur (Builtin.conv c1).cur heap heap2 d.length := by
          intro heap2 ho
          refine ⟨?_, ?_⟩
          · intro r hr hn
            rw [ho.kept r (by omega), k1.kept r hr hn]
            intro hm
            rcases k3 r hm with h | h
            · exact hn h
            · omega
          · have := k1.weight
            have := ho.weight
            omega
        generalize (if c1.switched then c1.temp.receive d heap1 else c1.memory.receive d heap1) = z at *
        rcases z with ⟨(e | _), heap2⟩
        · exact ⟨comb heap2 (hr _ _ rfl), by simp⟩
        · exact ⟨comb heap2 (hr _ _ rfl), by simp⟩

/-! ### The world -/

/-- Between files: the collected files have at most `k` bytes. -/
def Light (h0 : Heap) (n : Nat) (k : Nat) (w : BWorld) (fs : List Uploaded) : Prop :=
  Apart h0 n w fs ∧ w.heap.weight (fs.map Uploaded.ref) ≤ k

/-- All files that have been collected or may be returned. -/
def BWorld.all (w : BWorld) (fs : List Uploaded) : List Nat := w.hs.flatMap Builtin.cur ++ fs.map Uploaded.ref

/-- While a file arrives: these are different ones and have at most `k` bytes. -/
def Loaded (h0 : Heap) (n : Nat) (k : Nat) (w : BWorld) (fs : List Uploaded) : Prop :=
  Apart h0 n w fs ∧ (w.all fs).Nodup ∧ w.heap.weight (w.all fs) ≤ k

theorem Loaded.light {h0 : Heap} {n k : Nat} {w : BWorld} {fs : List Uploaded} (h : Loaded h0 n k w fs) : Light h0 n k w fs := by
  refine ⟨h.1, Nat.le_trans ?_ h.2.2⟩
  rw [BWorld.all, Heap.weight_append]
  omega

theorem all_perm (pre : List Builtin) (b : Builtin) (post : List Builtin) (heap : Heap) (fs : List Uploaded) :
    (BWorld.all ⟨pre ++ b :: post, heap⟩ fs).Perm
      (b.cur ++ (pre.flatMap Builtin.cur ++ (post.flatMap Builtin.cur ++ fs.map Uploaded.ref))) := by
  simp only [BWorld.all, List.flatMap_append, List.flatMap_cons, List.append_assoc]
  exact List.perm_append_comm_assoc _ _ _

/-- An operation of one handler. -/
theorem Loaded.step {h0 : Heap} {n k d : Nat} {pre post : List Builtin} {b b' : Builtin} {heap heap' : Heap} {fs : List Uploaded}
    (h : Loaded h0 n k ⟨pre ++ b :: post, heap⟩ fs) (ha : Apart h0 n ⟨pre ++ b' :: post, heap'⟩ fs)
    (hg : FileGrows b.cur b'.cur heap heap' d) (hc : ∀ r ∈ b'.cur, r ∈ b.cur ∨ heap.length ≤ r) :
    Loaded h0 n (k + d) ⟨pre ++ b' :: post, heap'⟩ fs := by
  obtain ⟨h1, h2, h3⟩ := h
  have p1 := all_perm pre b post heap fs
  have p2 := all_perm pre b' post heap' fs
  have lt : ∀ r ∈ pre.flatMap Builtin.cur ++ (post.flatMap Builtin.cur ++ fs.map Uploaded.ref), r < heap.length := by
    intro r hr
    simp only [List.mem_append, List.mem_flatMap, List.mem_map] at hr
    rcases hr with ⟨x, hx, hr⟩ | ⟨x, hx, hr⟩ | ⟨f, hf, rfl⟩
    · exact (h1.refs x (by simp [hx]) r (x.cur_refs r hr)).2
    · exact (h1.refs x (by simp [hx]) r (x.cur_refs r hr)).2
    · exact (h1.files f hf).2
  rw [p1.nodup_iff, List.nodup_append] at h2
  rw [Heap.weight_perm _ p1, Heap.weight_append] at h3
  refine ⟨ha, ?_, ?_⟩
  · rw [p2.nodup_iff, List.nodup_append]
    refine ⟨b'.cur_nodup, h2.2.1, ?_⟩
    intro x hx y hy hxy
    subst hxy
    rcases hc x hx with h | h
    · exact h2.2.2 x h x hy rfl
    · have := lt x hy
      omega
  · have hw : heap'.weight (pre.flatMap Builtin.cur ++ (post.flatMap Builtin.cur ++ fs.map Uploaded.ref)) =
        heap.weight (pre.flatMap Builtin.cur ++ (post.flatMap Builtin.cur ++ fs.map Uploaded.ref)) :=
      Heap.weight_congr fun r hr => hg.kept r (lt r hr) fun hb => h2.2.2 r hb r hr rfl
    have := hg.weight
    rw [Heap.weight_perm _ p2, Heap.weight_append]
    simp only at h3 ⊢
    omega

section
variable {ρ : Type} {os : Os} {h0 : Heap} {n : Nat}

theorem newFiles_light (hos : ∀ x, os.tempFile x ≠ .error .stopFutureHandlers) (a : NewFileArgs) (fs : List Uploaded)
    (n1 k : Nat) (hn : ∀ f ∈ fs, f.ref < n1) : ∀ (post pre : List Builtin) (heap : Heap), n1 ≤ heap.length →
    Light h0 n k ⟨pre ++ post, heap⟩ fs →
    (∀ b ∈ pre, ¬ b.Stops) → (pre.flatMap Builtin.cur).Nodup → (∀ r ∈ pre.flatMap Builtin.cur, n1 ≤ r ∧ heap.len r = 0) →
    let z := newFiles (builtinOps ρ os n) a (List.range' pre.length post.length) ⟨pre ++ post, heap⟩
    Light h0 n k z.2 fs ∧ (z.1 = .ok () → Loaded h0 n k z.2 fs) := by
  -- when all handlers that have a file have a new one
  have fin : ∀ (hs : List Builtin) (heap : Heap), Light h0 n k ⟨hs, heap⟩ fs → (hs.flatMap Builtin.cur).Nodup →
      (∀ r ∈ hs.flatMap Builtin.cur, n1 ≤ r ∧ heap.len r = 0) → Loaded h0 n k ⟨hs, heap⟩ fs := by
    intro hs heap h h1 h2
    refine ⟨h.1, ?_, ?_⟩
    · rw [BWorld.all, List.nodup_append]
      refine ⟨h1, h.1.nodup, ?_⟩
      intro x hx y hy hxy
      subst hxy
      obtain ⟨f, hf, rfl⟩ := List.mem_map.1 hy
      have := (h2 _ hx).1
      have := hn f hf
      omega
    · rw [BWorld.all, Heap.weight_append, Heap.weight_zero (l := List.flatMap _ _) fun r hr => (h2 r hr).2, Nat.zero_add]
      exact h.2
  intro post
  induction post with
  | nil =>
    intro pre heap _ h hp h1 h2
    simp only [List.length_nil, List.range'_zero, newFiles, List.append_nil] at h ⊢
    exact ⟨h, fun _ => fin _ _ h h1 h2⟩
  | cons b post ih =>
    intro pre heap hlen h hp h1 h2
    rw [List.length_cons, List.range'_succ]
    obtain ⟨m1, m2, m3, m4⟩ := newFile_moves os hos a b heap
    have m5 := newFile_len os a b heap
    have e : (builtinOps ρ os n).newFile pre.length a ⟨pre ++ b :: post, heap⟩ =
        ((b.newFile os a heap).1, ⟨pre ++ (b.newFile os a heap).2.1 :: post, (b.newFile os a heap).2.2⟩) := by
      simp [builtinOps, BWorld.on]
    unfold newFiles
    rw [e]
    clear e
    have hi := h.1.step m1 (.inr (.inr fun x hx => hp x hx))
    generalize b.newFile os a heap = z at *
    obtain ⟨r, b', heap'⟩ := z
    simp only at m1 m2 m3 m4 m5 hi
    have hl : Light h0 n k ⟨pre ++ b' :: post, heap'⟩ fs :=
      ⟨hi, by rw [Heap.weight_congr (h := heap) fun r _ => m5 r]; exact h.2⟩
    have prelt : ∀ r ∈ pre.flatMap Builtin.cur, r < heap.length := by
      intro r hr
      obtain ⟨x, hx, hr⟩ := List.mem_flatMap.1 hr
      exact (h.1.refs x (by simp [hx]) r (x.cur_refs r hr)).2
    have nod : (∀ r ∈ b'.cur, heap.length ≤ r) → ((pre ++ [b']).flatMap Builtin.cur).Nodup ∧
        ∀ r ∈ (pre ++ [b']).flatMap Builtin.cur, n1 ≤ r ∧ heap'.len r = 0 := by
      intro hnew
      simp only [List.flatMap_append, List.flatMap_cons, List.flatMap_nil, List.append_nil]
      refine ⟨?_, ?_⟩
      · rw [List.nodup_append]
        refine ⟨h1, b'.cur_nodup, ?_⟩
        intro x hx y hy hxy
        subst hxy
        have := prelt x hx
        have := hnew x hy
        omega
      · intro r hr
        rw [m5]
        rcases List.mem_append.1 hr with hr | hr
        · exact h2 r hr
        · exact ⟨Nat.le_trans hlen (hnew r hr), Heap.len_new (hnew r hr)⟩
    cases r with
    | ok u =>
      simp only
      obtain ⟨g1, g2⟩ := nod (m3 (.inl rfl))
      have := ih (pre ++ [b']) heap' (Nat.le_trans hlen m1.len) (by simpa using hl) (by
        intro x hx
        rcases List.mem_append.1 hx with hx | hx
        · exact hp x hx
        · rw [List.mem_singleton] at hx
          subst hx
          exact m2 rfl) g1 g2
      simpa using this
    | error e =>
      by_cases hst : e = .stopFutureHandlers
      · subst hst
        simp only
        obtain ⟨g1, g2⟩ := nod (m3 (.inr rfl))
        have hpost : (pre ++ b' :: post).flatMap Builtin.cur = (pre ++ [b']).flatMap Builtin.cur := by
          have : post.flatMap Builtin.cur = [] := by
            rw [List.flatMap_eq_nil_iff]
            intro x hx
            have hsh := h.1.shape
            simp only at hsh
            rw [List.pairwise_append] at hsh
            have := (List.pairwise_cons.1 hsh.2.1).1 x hx (m4 rfl)
            rw [List.eq_nil_iff_forall_not_mem]
            intro r hr
            have hr' := x.cur_refs r hr
            rw [this] at hr'
            cases hr'
          simp [this]
        exact ⟨hl, fun _ => fin _ _ hl (by rw [hpost]; exact g1) (by rw [hpost]; exact g2)⟩
      · have : ∀ w', (match ((.error e, w') : Res BWorld Unit) with
            | (.error .stopFutureHandlers, w) => (.ok (), w)
            | (.error e, w) => (.error e, w)
            | (.ok (), w) => newFiles (builtinOps ρ os n) a (List.range' (pre.length + 1) post.length) w) = (.error e, w') := by
          intro w'
          cases e <;> first | rfl | exact absurd rfl hst
        simp only [this]
        exact ⟨hl, by simp⟩

theorem builtin_weighs (hos : ∀ x, os.tempFile x ≠ .error .stopFutureHandlers) :
    (builtinOps ρ os n).Weighs (Light h0 n) (Loaded h0 n) where
  mono k m w fs hkm h := ⟨h.1, h.2.1, Nat.le_trans h.2.2 hkm⟩
  monoIdle k m w fs hkm h := ⟨h.1, Nat.le_trans h.2 hkm⟩
  perm k w fs fs' hp h := ⟨(builtin_tracks (ρ := ρ) hos).perm w fs fs' hp h.1,
    by rw [← Heap.weight_perm _ (hp.map Uploaded.ref)]; exact h.2⟩
  idle k w fs h := h.light
  newFiles k a w fs h := by
    obtain ⟨hs, heap⟩ := w
    have := newFiles_light (ρ := ρ) hos a fs heap.length k (fun f hf => (h.1.files f hf).2) hs [] heap (Nat.le_refl _) h
      (by simp) (by simp) (by simp)
    have hc : hs.length = n := h.1.count
    simp only [List.length_nil, List.nil_append, ← List.range_eq_range', hc] at this
    exact this
  receive k i d c w fs h := by
    simp only [builtinOps]
    rcases on_cases w i (fun b hp => b.receive os d hp) with ⟨e, -⟩ | ⟨pre, b, post, e1, -, e2⟩
    · rw [e]; exact ⟨h.1, h.2.1, Nat.le_trans h.2.2 (Nat.le_add_right _ _)⟩
    · rw [e2]
      obtain ⟨hs, heap⟩ := w
      simp only at e1
      subst e1
      obtain ⟨m1, m2, m3⟩ := receive_moves os d b heap
      refine h.step (h.1.step m1 ?_) (receive_grows os d b heap).1 m2
      by_cases hb : b.refs = []
      · exact .inl (m3 hb)
      · exact .inr (.inl hb)
  passes k i d c w fs d' h hd := by
    simp only [builtinOps] at hd ⊢
    rcases on_cases w i (fun b hp => b.receive os d hp) with ⟨e, e'⟩ | ⟨pre, b, post, e1, -, e2⟩
    · rw [e'] at hd; cases hd
    · rw [e2] at hd ⊢
      obtain ⟨hs, heap⟩ := w
      simp only at e1
      subst e1
      obtain ⟨g1, g2, g3⟩ := (receive_grows os d b heap).2 d' hd
      simp only at g2 g3 ⊢
      rw [g1, g2, g3]
      exact ⟨Nat.le_refl _, h⟩
  fileComplete k i c w fs h := by
    simp only [builtinOps]
    rcases on_cases w i (fun b hp => b.fileComplete c hp) with ⟨e, -⟩ | ⟨pre, b, post, e1, -, e2⟩
    · rw [e]; exact h
    · rw [e2]
      obtain ⟨hs, heap⟩ := w
      simp only at e1
      subst e1
      obtain ⟨m1, m2, m3, -⟩ := fileComplete_moves c b heap
      have hl := fileComplete_len c b heap
      refine h.step (d := 0) (h.1.step m1 ?_) ⟨fun r _ _ => hl r, ?_⟩ (by rw [m2]; exact fun r hr => .inl hr)
      · rw [m3]
        by_cases hb : b.refs = []
        · exact .inl hb
        · exact .inr (.inl hb)
      · rw [m2, Heap.weight_congr (h := heap) fun r _ => hl r]
        exact Nat.le_refl _
  complete k i c w fs f h hf := by
    have hh : Held h0 n w fs := by
      refine ⟨h.1, fun b hb r hr hm => ?_⟩
      have := (List.nodup_append.1 h.2.1).2.2
      exact this r (List.mem_flatMap.2 ⟨b, hb, hr⟩) r hm rfl
    have ha := (builtin_tracks (ρ := ρ) hos).complete i c w fs f hh hf
    refine ⟨ha, ?_⟩
    simp only [builtinOps] at hf ⊢
    rcases on_cases w i (fun b hp => b.fileComplete c hp) with ⟨-, e⟩ | ⟨pre, b, post, e1, -, e2⟩
    · rw [e] at hf; cases hf
    · rw [e2] at hf ⊢
      obtain ⟨hs, heap⟩ := w
      simp only at e1
      subst e1
      obtain ⟨m1, m2, m3, m4⟩ := fileComplete_moves c b heap
      have hl := fileComplete_len c b heap
      rw [Heap.weight_congr (h := heap) fun r _ => hl r]
      refine Nat.le_trans ?_ h.2.2
      have hcur : b.cur = [f.ref] := by
        have h1 := b.cur_length
        have h2 := m4 f hf
        generalize b.cur = l at *
        match l, h1 with
        | [], _ => cases h2
        | [_], _ => simp at h2; rw [h2]
      rw [Heap.weight_perm _ (all_perm pre b post heap fs), hcur, List.map_cons]
      simp only [Heap.weight_append]
      simp only [Heap.weight, List.map_cons, List.sum_cons, List.map_nil, List.sum_nil]
      omega
  uploadComplete k i w fs h := h
  close k i w fs h := by
    refine ⟨(builtin_tracks (ρ := ρ) hos).close i w fs h.1, ?_⟩
    simp only [builtinOps]
    rcases on_cases w i (fun b h => (.ok (), b, b.close h)) with ⟨e, -⟩ | ⟨pre, b, post, e1, -, e2⟩
    · rw [e]; exact h.2
    · rw [e2]
      simp only
      rw [Heap.weight_congr (h := w.heap) fun r _ => close_len b w.heap r]
      exact h.2

end
namespace Spec

/-- The bytes of the files together. -/
def fileBytes (heap : Heap) (fs : List Uploaded) : Nat := (fs.map fun f => heap.len f.ref).sum

/-- The bytes of the fields of a form. -/
def formBytes : Option PostDict → Nat
  | some (.form p) => fieldBytes p
  | _ => 0

/-- What follows the first blank line. -/
def afterHead (sent : Bytes) : Bytes :=
  match Py.find b!"\r\n\r\n" sent with
  | none => []
  | some i => sent.drop (i + 4)

end Spec

theorem weight_fileBytes (heap : Heap) (fs : List Uploaded) : heap.weight (fs.map Uploaded.ref) = fileBytes heap fs := by
  simp [Heap.weight, fileBytes, Function.comp_def]

section
variable {ρ : Type} [Producer ρ] {L : Lawful ρ} {C : Codecs} {up : List UStr} {os : Os}
  {mods : Modules (Except Exc Builtin)} {names : List Bytes} {fuel64 : Nat} {hs : List Builtin} {heap : Heap}

/-- **C119.**  The fields and the files that `MultiPartParser.parse` returns have together no more bytes than the body:
whatever the body, the size of the chunks, the settings and the new handlers; also with a boundary that is text. -/
theorem C119_parse (hos : ∀ x, os.tempFile x ≠ .error .stopFutureHandlers) (hn : ∀ b ∈ hs, NewHandler b)
    (S : Settings) (text : Bool) (m : MultiPart) (hc : 1 ≤ m.chunkSize) (input : LazyStream ρ) (hi : SOK L input)
    {post : MVD PostItem} {files : MVD Uploaded} {s' : LazyStream ρ} {w' : BWorld}
    (h : m.run C S (builtinOps ρ os hs.length) fuel64 text input ⟨hs, heap⟩ = (.ok (post, files), s', w')) :
    fieldBytes post + fileBytes w'.heap (filesOf files) ≤ (L.sc input).length := by
  have key : ∀ {s' w'}, m.parse C S (builtinOps ρ os hs.length) fuel64 input ⟨hs, heap⟩ = (.ok (post, files), s', w') →
      fieldBytes post + fileBytes w'.heap (filesOf files) ≤ (L.sc input).length := by
    intro s' w' h
    obtain ⟨k, h1, -, h2⟩ := parse_weighs (L := L) (builtin_weighs (ρ := ρ) (h0 := heap) (n := hs.length) hos) C S fuel64 m hc
      (builtin_leaves L os hs.length) input ⟨hs, heap⟩ hi ⟨new_apart hn, by simp [Heap.weight]⟩ (by
        intro a input input1 w1 he
        have hraw := rawInputLoop_builtin (ρ := ρ) os hs.length a input heap hs []
        simp only [List.length_nil, List.nil_append, ← List.range_eq_range'] at hraw
        have hr : rawInputLoop (builtinOps ρ os hs.length) a (List.range (builtinOps ρ os hs.length).count) input ⟨hs, heap⟩ = _ := hraw
        rw [hr] at he
        simp only [Prod.mk.injEq, true_and] at he
        rw [← he.2]
        exact ⟨map_apart _ fun b hb => newHandler_refs (hn b hb) _, by simp [Heap.weight]⟩) h
    rw [weight_fileBytes] at h2
    omega
  cases text with
  | false => exact key h
  | true =>
    rcases C106_same_partial C S (builtinOps ρ os hs.length) fuel64 m hc (builtin_leaves L os hs.length) input ⟨hs, heap⟩ hi with h1 | h1
    · rw [h] at h1
      cases h1
    · exact key (h1 ▸ h)

/-- The fields and files of a request have at most `n` bytes. -/
def Fits (n : Nat) (heap : Heap) (r : Req ρ BWorld Uploaded) : Prop :=
  formBytes r.post_ + fileBytes heap (filesIn r.files_) ≤ n ∧ formBytes r.post + fileBytes heap (filesIn r.files) ≤ n

/-- A request without fields and files. -/
structure Bare (r : Req ρ BWorld Uploaded) : Prop where
  post_ : formBytes r.post_ = 0
  files_ : filesIn r.files_ = []
  post : formBytes r.post = 0
  files : filesIn r.files = []

omit [Producer ρ] in
theorem Bare.fits {r : Req ρ BWorld Uploaded} (h : Bare r) (n : Nat) (hp : Heap) : Fits n hp r := by
  simp [Fits, h.post_, h.files_, h.post, h.files, fileBytes]

omit [Producer ρ] in
theorem Bare.mark {r : Req ρ BWorld Uploaded} (h : Bare r) (S : Settings) (e : Exc) : Bare (markError C S e r).1 := by
  unfold markError
  cases queryDict C S none false
  · exact h
  · exact ⟨rfl, rfl, h.post, h.files⟩

theorem bodyCore_posts (S : Settings) (r : Req ρ BWorld Uploaded) : (bodyCore S r).2.post_ = r.post_ := by
  unfold bodyCore
  split
  · rfl
  · split
    · rfl
    · split
      · rfl
      · unfold readBody
        rcases r.stream.read (some 65536) with ⟨o, s⟩
        cases o with
        | error e => rfl
        | ok c =>
          simp only
          rcases bodyLoop S.dataMaxMemory (s.size + 2) [] c c.length s with ⟨o, s⟩
          cases o <;> rfl

theorem Fits.body {n : Nat} {h : Heap} {r : Req ρ BWorld Uploaded} (hf : Fits n h r) (S : Settings) :
    Fits n h (bodyCore S r).2 := by
  have f := bodyCore_frame S r
  unfold Fits
  rw [bodyCore_posts, bodyCore_files, f.post, f.files]
  exact hf

theorem parseFileUpload_fits (hos : ∀ x, os.tempFile x ≠ .error .stopFutureHandlers)
    (hl : loadHandlers mods names = .ok hs) (hn : ∀ b ∈ hs, NewHandler b) (S : Settings) (r : Req ρ BWorld Uploaded)
    (hi : SOK L r.stream) (hb : Bare r) :
    let z := parseFileUpload (namedEnv ρ C up os mods names fuel64) S (builtinOps ρ os hs.length) r ⟨hs, heap⟩
    Bare z.2.1 ∧ ∀ p f, z.1 = .ok (p, f) → fieldBytes p + fileBytes z.2.2.heap (filesOf f) ≤ (L.sc r.stream).length := by
  have hload : (if (builtinOps ρ os hs.length).count = 0 then
      (namedEnv ρ C up os mods names fuel64).load ⟨hs, heap⟩ else (.ok (builtinOps ρ os hs.length), ⟨hs, heap⟩)) =
      (.ok (builtinOps ρ os hs.length), ⟨hs, heap⟩) := by
    simp only [namedEnv, hl, ite_self]
  unfold parseFileUpload
  cases r.info.bind (·.headers) with
  | none => exact ⟨hb, by simp⟩
  | some h =>
    simp only [hload]
    have hb' : ∀ (s : LazyStream ρ) (H : Option (HandlerOps ρ BWorld Uploaded)), Bare ({ r with stream := s, handlers := H }) := fun s H => ⟨hb.1, hb.2, hb.3, hb.4⟩
    cases hm : MultiPart.create (namedEnv ρ C up os mods names fuel64).C (builtinOps ρ os hs.length)
        ((h.get? b!"Content-Type").bind List.getLast?) ((h.get? b!"Content-Length").bind List.getLast?) with
    | error e => exact ⟨hb' _ _, by simp⟩
    | ok m =>
      simp only
      refine ⟨hb' _ _, ?_⟩
      intro p f hpf
      exact C119_parse (L := L) hos hn S _ m (C33_chunk_size _ _ _ _ _ hm).2.1 r.stream hi (Prod.ext hpf rfl)

theorem parseByType_fits (hos : ∀ x, os.tempFile x ≠ .error .stopFutureHandlers)
    (hl : loadHandlers mods names = .ok hs) (hn : ∀ b ∈ hs, NewHandler b) (S : Settings) (r : Req ρ BWorld Uploaded)
    (hi : SOK L r.stream) (hb : Bare r) :
    let z := parseByType (namedEnv ρ C up os mods names fuel64) S (builtinOps ρ os hs.length) r ⟨hs, heap⟩
    Fits (L.sc r.stream).length z.2.2.heap z.2.1 := by
  unfold parseByType
  cases r.contentType with
  | none => exact hb.fits _ _
  | some ct =>
    simp only
    split
    · have h := parseFileUpload_fits (L := L) (C := C) (up := up) (fuel64 := fuel64) (heap := heap) hos hl hn S r hi hb
      generalize parseFileUpload (namedEnv ρ C up os mods names fuel64) S (builtinOps ρ os hs.length) r ⟨hs, heap⟩ = y at h ⊢
      obtain ⟨x, r', w⟩ := y
      obtain ⟨h1, h2⟩ := h
      simp only at h1 h2
      cases x with
      | ok pf =>
        obtain ⟨p, f⟩ := pf
        refine ⟨?_, ?_⟩
        · simp only [formBytes, filesIn_some]
          exact h2 p f rfl
        · simp [h1.post, h1.files, fileBytes]
      | error e =>
        have hm := h1.mark (C := (namedEnv ρ C up os mods names fuel64).C) S .multiPartParserError
        split
        · next heq =>
          cases heq
          exact hm.fits _ _
        · next heq =>
          cases heq
          exact h1.fits _ _
        · next heq => cases heq
    · split
      · have h := (hb.fits (L.sc r.stream).length heap).body S
        have f := bodyCore_frame S r
        generalize bodyCore S r = y at h f ⊢
        obtain ⟨x, r'⟩ := y
        cases x with
        | error e => exact h
        | ok b =>
          simp only
          cases queryDict (namedEnv ρ C up os mods names fuel64).C S (some b) false with
          | error e => exact h
          | ok q => exact ⟨by simp [formBytes, filesIn, fileBytes], h.2⟩
      · cases queryDict (namedEnv ρ C up os mods names fuel64).C S none false with
        | error e => exact hb.fits _ _
        | ok q => exact ⟨by simp [formBytes, filesIn, fileBytes], (hb.fits _ _).2⟩

theorem parseBodyStream_fits (hos : ∀ x, os.tempFile x ≠ .error .stopFutureHandlers)
    (hl : loadHandlers mods names = .ok hs) (hn : ∀ b ∈ hs, NewHandler b) (S : Settings) (r : Req ρ BWorld Uploaded)
    (hi : SK L 2 r.stream) (hb : Bare r) :
    let z := parseBodyStream (namedEnv ρ C up os mods names fuel64) S (builtinOps ρ os hs.length) r ⟨hs, heap⟩
    Fits (L.sc r.stream).length z.2.2.heap z.2.1 := by
  unfold parseBodyStream
  obtain ⟨s1, e1, a1, a2, -⟩ := hi.read (by omega) 1
  have e1' : r.stream.read (some 1) = (.ok ((L.sc r.stream).take 1), s1) := e1
  rw [e1']
  simp only
  have hb' : ∀ s : LazyStream ρ, Bare ({ r with stream := s }) := fun s => ⟨hb.1, hb.2, hb.3, hb.4⟩
  split
  · cases queryDict (namedEnv ρ C up os mods names fuel64).C S none false with
    | error e => exact (hb' _).fits _ _
    | ok q => exact ⟨by simp [formBytes, filesIn, fileBytes], ((hb' s1).fits _ _).2⟩
  · obtain ⟨s2, e2, b1, b2⟩ := a1.unget (by omega) ((L.sc r.stream).take 1)
    rw [e2]
    simp only
    have hsc : L.sc s2 = L.sc r.stream := by rw [b2, a2, List.take_append_drop]
    have h := parseByType_fits (L := L) (C := C) (up := up) (fuel64 := fuel64) (heap := heap) hos hl hn S
      { r with stream := s2 } (b1.toSOK (by omega)) (hb' s2)
    generalize parseByType (namedEnv ρ C up os mods names fuel64) S (builtinOps ρ os hs.length)
      { r with stream := s2 } ⟨hs, heap⟩ = y at h ⊢
    obtain ⟨x, r', w⟩ := y
    simp only [hsc] at h
    cases x with
    | error e => exact h
    | ok u =>
      simp only
      unfold finishBody
      have g := h.body S
      generalize bodyCore S r' = y at g ⊢
      obtain ⟨x, r''⟩ := y
      cases x with
      | error e => exact g
      | ok b =>
        simp only
        cases decodeBody (namedEnv ρ C up os mods names fuel64).C S b with
        | error e => exact g
        | ok u => exact ⟨g.1, g.1⟩

/-- **C119 for requests.**  The fields and the files of a request have together no more bytes than what was sent after
the header, however parsing ends. -/
theorem C119_request (L : Lawful ρ) (hos : ∀ x, os.tempFile x ≠ .error .stopFutureHandlers) (hm : MakesNew mods)
    (S : Settings) (hS : 1 ≤ S.maxHeaderSize) {p : ρ} (hI : L.Inv p) {r : Req ρ BWorld Uploaded}
    (hr : Req.new C S p = .ok r) (w : BWorld) :
    let z := parseRequest (namedEnv ρ C up os mods names fuel64) S r w
    formBytes z.2.2.1.post + fileBytes z.2.2.2.heap (filesIn z.2.2.1.files) ≤ (afterHead (L.content p)).length := by
  have key : r.stream = LazyStream.mk' p ∧ r.bodyParsed = false ∧ r.headerParsed = false ∧ Bare r := by
    unfold Req.new Req.reInit at hr
    cases hq : queryDict C S none true with
    | error e => rw [hq] at hr; cases hr
    | ok q =>
      rw [hq] at hr
      cases hr
      exact ⟨rfl, rfl, rfl, rfl, rfl, rfl, rfl⟩
  obtain ⟨k1, k2, k3, k4⟩ := key
  have hc : L.sc r.stream = L.content p := by rw [k1]; rfl
  suffices h : Fits (afterHead (L.content p)).length (parseRequest (namedEnv ρ C up os mods names fuel64) S r w).2.2.2.heap
      (parseRequest (namedEnv ρ C up os mods names fuel64) S r w).2.2.1 from h.2
  unfold parseRequest
  rcases parseRequestHeader_spec (L := L) (k := 0) (by omega) (namedEnv ρ C up os mods names fuel64) S hS r k3
      (by rw [k1]; exact SK.fresh L p hI) with ⟨j, s1, a1, a2, a3, a4⟩ | ⟨_, s1, a2, _⟩
  · rw [a2]
    obtain ⟨f1, -⟩ := applyHeader_frame (namedEnv ρ C up os mods names fuel64) ((L.sc r.stream).take j) S
      { r with stream := s1, headerParsed := true }
    rcases ha : applyHeader (namedEnv ρ C up os mods names fuel64) ((L.sc r.stream).take j) S
        { r with stream := s1, headerParsed := true } with ⟨x, S1, r1⟩
    rw [ha] at f1
    simp only at f1
    have hb : Bare r1 := by
      refine ⟨?_, by rw [f1.files_]; exact k4.files_, by rw [f1.post]; exact k4.post, by rw [f1.files]; exact k4.files⟩
      rcases f1.post_ with h | h
      · rw [h]; exact k4.post_
      · rw [h]; rfl
    cases x with
    | error e => exact hb.fits _ _
    | ok u =>
      simp only
      have hsc : L.sc r1.stream = (L.content p).drop (j + 4) := by rw [f1.stream, a4, hc]
      have hah : afterHead (L.content p) = (L.content p).drop (j + 4) := by
        rw [hc] at a1
        simp only [afterHead, a1]
      unfold parseRequestBody
      split
      · exact hb.fits _ _
      · cases hl : loadHandlers mods names with
        | error e =>
          have e1 : (namedEnv ρ C up os mods names fuel64).load w = (.error e, w) := by simp only [namedEnv, hl]
          rw [e1]
          exact hb.fits _ _
        | ok hs =>
          have e1 : (namedEnv ρ C up os mods names fuel64).load w =
              (.ok (builtinOps ρ os hs.length), ⟨hs, w.heap⟩) := by simp only [namedEnv, hl]
          rw [e1]
          have hb' : Bare { r1 with handlers := some (builtinOps ρ os hs.length) } := ⟨hb.1, hb.2, hb.3, hb.4⟩
          simp only
          split
          · exact (hb'.mark _ _).fits _ _
          · have := parseBodyStream_fits (L := L) (C := C) (up := up) (fuel64 := fuel64) (heap := w.heap) hos hl
              (makesNew_load hm names hs hl) S1 { r1 with handlers := some (builtinOps ρ os hs.length) }
              (f1.stream ▸ a3) hb'
            simp only [hsc] at this
            rw [hah]
            exact this
  · rw [a2]
    exact Bare.fits ⟨k4.1, k4.2, k4.3, k4.4⟩ _ _

end

example := C119_request (C := pyCodecs) (up := []) (os := goodOs) (names := defaultHandlers) (fuel64 := 0) Source.lawful
  (by simp [goodOs]) sampleModules_new {} (by decide) (p := ⟨[twoFileRequest]⟩) trivial
  (r := twoFileReq) rfl ⟨[], []⟩

example :
    let z := parseRequest (namedEnv Source pyCodecs [] goodOs sampleModules defaultHandlers 0) {} twoFileReq ⟨[], []⟩
    z.1.toOption = some () ∧ fileBytes z.2.2.2.heap (filesIn z.2.2.1.files) = 3 ∧ (afterHead twoFileRequest).length = 134 := by
  decide +kernel

end Verif
