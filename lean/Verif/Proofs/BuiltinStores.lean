import Verif.Proofs.FormParse
import Verif.Proofs.Builtin
/-! The built-in handlers store files. -/

namespace Verif
open Spec

/-- The handler has been given the request (`handle_raw_input`). -/
def Builtin.Init : Builtin → Prop
  | .memory h => h.activated ≠ none
  | .temp h => h.hasSettings = true
  | .conv h => h.fileMax.isSome ∧ (h.switched = true → h.temp.hasSettings = true) ∧
      (h.switched = false → h.memory.activated = some true)

/-- A memory handler that found the request too large. -/
def Builtin.Inactive : Builtin → Prop
  | .memory h => h.activated = some false
  | _ => False

/-- The handler takes files. -/
def Builtin.Accepts (b : Builtin) : Prop := b.Init ∧ ¬ b.Inactive

def MemoryH.Open (h : MemoryH) (n : Bytes) (r : Nat) : Prop :=
  h.file = some r ∧ ∃ a, h.args = some a ∧ a.fileName = n
def TempH.Open (h : TempH) (n : Bytes) (r : Nat) : Prop :=
  ∃ f, h.file = some f ∧ f.ref = r ∧ f.name = setName n

/-- The handler has a file at `r`, announced as `n`. -/
def Builtin.Open (b : Builtin) (n : Bytes) (r : Nat) : Prop :=
  match b with
  | .memory h => h.Open n r
  | .temp h => h.Open n r
  | .conv h => (h.switched = true → h.temp.Open n r) ∧ (h.switched = false → h.memory.Open n r)

theorem BWorld.on_mid {α : Type} {pre post : List Builtin} {b : Builtin} {heap : Heap}
    (f : Builtin → Heap → Res (Builtin × Heap) α) :
    (⟨pre ++ b :: post, heap⟩ : BWorld).on pre.length f =
      ((f b heap).1, ⟨pre ++ (f b heap).2.1 :: post, (f b heap).2.2⟩) := by
  simp [BWorld.on]

theorem Builtin.newFile_init {os : Os} (hos : ∀ e, os.tempFile e = .ok ()) (a : NewFileArgs) (b : Builtin)
    (heap : Heap) (hb : b.Init) :
    ∃ r b' extra, b.newFile os a heap = (r, b', heap ++ extra) ∧ b'.Init ∧
      (r = .ok () ∨ r = .error .stopFutureHandlers) ∧
      (b.Inactive → b'.Inactive ∧ extra = [] ∧ r = .ok ()) ∧
      (¬ b.Inactive → ¬ b'.Inactive ∧ extra = [{}] ∧ b'.Open a.fileName heap.length) := by
  cases b with
  | memory h =>
    obtain ⟨args, act, file⟩ := h
    cases act with
    | none => exact absurd rfl hb
    | some v =>
      cases v with
      | false =>
        exact ⟨.ok (), .memory ⟨some a, some false, file⟩, [], by simp [Builtin.newFile, MemoryH.newFile], by simp [Builtin.Init],
          .inl rfl, fun _ => ⟨rfl, rfl, rfl⟩, fun h => absurd rfl h⟩
      | true =>
        exact ⟨_, _, [{}], rfl, by simp [Builtin.Init],
          .inr rfl, fun h => by simp [Builtin.Inactive] at h,
          fun _ => ⟨by simp [Builtin.Inactive], rfl, rfl, a, rfl, rfl⟩⟩
  | temp h =>
    obtain ⟨args, hasS, file⟩ := h
    change hasS = true at hb
    subst hb
    refine ⟨.ok (), .temp { args := some a, hasSettings := true, file := some { ref := heap.length, inMemory := false, name := setName a.fileName, size := 0, args := a } }, [{}], ?_, rfl, .inl rfl, fun h => h.elim, fun _ => ⟨fun h => h.elim, rfl, _, rfl, rfl, rfl⟩⟩
    simp [Builtin.newFile, TempH.newFile, hos]
  | conv h =>
    obtain ⟨rec, settings, sw, ⟨margs, mact, mfile⟩, ⟨targs, thasS, tfile⟩⟩ := h
    obtain ⟨h1, h2, h3⟩ := hb
    simp only at h1 h2 h3
    cases sw with
    | true =>
      have := h2 rfl
      subst this
      refine ⟨.ok (), .conv { received := rec, fileMax := settings, switched := true, memory := ⟨margs, mact, mfile⟩, temp := { args := some a, hasSettings := true, file := some { ref := heap.length, inMemory := false, name := setName a.fileName, size := 0, args := a } } }, [{}], ?_, ⟨h1, fun _ => rfl, by simp⟩, .inl rfl, fun h => h.elim, fun _ => ⟨fun h => h.elim, rfl, fun _ => ⟨_, rfl, rfl, rfl⟩, by simp⟩⟩
      simp [Builtin.newFile, ConvH.newFile, TempH.newFile, hos]
    | false =>
      have := h3 rfl
      subst this
      exact ⟨.error .stopFutureHandlers, .conv { received := rec, fileMax := settings, switched := false, memory := ⟨some a, some true, some heap.length⟩, temp := ⟨targs, thasS, tfile⟩ }, [{}], rfl, ⟨h1, by simp, fun _ => rfl⟩, .inr rfl, fun h => h.elim, fun _ => ⟨fun h => h.elim, rfl, by simp, fun _ => ⟨rfl, a, rfl, rfl⟩⟩⟩

section
variable {ρ : Type} {os : Os} (hos : ∀ e, os.tempFile e = .ok ())
include hos

theorem newFiles_init (a : NewFileArgs) (N : Nat) : ∀ (post pre : List Builtin) (heap : Heap),
    (∀ b ∈ post, b.Init) →
    ∃ post' extra, newFiles (builtinOps ρ os N) a (List.range' pre.length post.length) ⟨pre ++ post, heap⟩ =
      (.ok (), ⟨pre ++ post', heap ++ extra⟩) ∧ post'.length = post.length ∧ ∀ b ∈ post', b.Init := by
  intro post
  induction post with
  | nil => intro pre heap _; exact ⟨[], [], by simp [newFiles], rfl, by simp⟩
  | cons b post ih =>
    intro pre heap hI
    obtain ⟨r, b', extra, h1, h2, h3, _, _⟩ := Builtin.newFile_init hos a b heap (hI b (by simp))
    rw [List.length_cons, List.range'_succ, newFiles]
    have e : (builtinOps ρ os N).newFile pre.length a ⟨pre ++ b :: post, heap⟩ =
        (r, ⟨pre ++ b' :: post, heap ++ extra⟩) := by
      simp only [builtinOps]
      rw [BWorld.on_mid, h1]
    rw [e]
    have hI' : ∀ x ∈ b' :: post, x.Init := by
      intro x hx
      rcases List.mem_cons.1 hx with rfl | hx
      · exact h2
      · exact hI x (by simp [hx])
    rcases h3 with rfl | rfl
    · obtain ⟨post', extra', i1, i2, i3⟩ := ih (pre ++ [b']) (heap ++ extra) (fun b hb => hI b (by simp [hb]))
      simp only [List.length_append, List.length_cons, List.length_nil, List.append_assoc, List.cons_append,
        List.nil_append] at i1
      refine ⟨b' :: post', extra ++ extra', i1, by simp [i2], ?_⟩
      intro x hx
      rcases List.mem_cons.1 hx with rfl | hx
      · exact h2
      · exact i3 x hx
    · exact ⟨b' :: post, extra, rfl, rfl, hI'⟩

/-- Inactive handlers before the one that takes the file. -/
theorem newFiles_accept (a : NewFileArgs) (N : Nat) (b : Builtin) (post : List Builtin) (heap : Heap)
    (hb : b.Accepts) (hp : ∀ x ∈ post, x.Init) : ∀ (mid pre : List Builtin), (∀ x ∈ mid, x.Init ∧ x.Inactive) →
    ∃ mid' b' post' extra, newFiles (builtinOps ρ os N) a
        (List.range' pre.length (mid.length + 1 + post.length)) ⟨pre ++ mid ++ b :: post, heap⟩ =
      (.ok (), ⟨pre ++ mid' ++ b' :: post', heap ++ ({} : FileObj) :: extra⟩) ∧
      mid'.length = mid.length ∧ post'.length = post.length ∧ (∀ x ∈ mid', x.Init ∧ x.Inactive) ∧
      b'.Accepts ∧ (∀ x ∈ post', x.Init) ∧ b'.Open a.fileName heap.length := by
  intro mid
  induction mid with
  | nil =>
    intro pre _
    obtain ⟨r, b', extra, h1, h2, h3, _, h5⟩ := Builtin.newFile_init hos a b heap hb.1
    obtain ⟨h8, h6, h7⟩ := h5 hb.2
    subst h6
    rw [List.length_nil, Nat.zero_add, Nat.add_comm, List.range'_succ, newFiles]
    have e : (builtinOps ρ os N).newFile pre.length a ⟨pre ++ b :: post, heap⟩ =
        (r, ⟨pre ++ b' :: post, heap ++ [({} : FileObj)]⟩) := by
      simp only [builtinOps]
      rw [BWorld.on_mid, h1]
    rw [List.append_nil, e]
    rcases h3 with rfl | rfl
    · obtain ⟨post', extra', i1, i2, i3⟩ := newFiles_init (ρ := ρ) hos a N post (pre ++ [b']) (heap ++ [({} : FileObj)]) hp
      simp only [List.length_append, List.length_cons, List.length_nil, List.append_assoc, List.cons_append,
        List.nil_append] at i1
      refine ⟨[], b', post', extra', ?_, rfl, i2, by simp, ⟨h2, h8⟩, i3, h7⟩
      simpa using i1
    · refine ⟨[], b', post, [], ?_, rfl, rfl, by simp, ⟨h2, h8⟩, hp, h7⟩
      simp
  | cons x mid ih =>
    intro pre hm
    obtain ⟨r, x', extra, h1, h2, h3, h4, _⟩ := Builtin.newFile_init hos a x heap (hm x (by simp)).1
    obtain ⟨h8, rfl, rfl⟩ := h4 (hm x (by simp)).2
    rw [List.length_cons, show mid.length + 1 + 1 + post.length = (mid.length + 1 + post.length) + 1 by omega,
      List.range'_succ, newFiles]
    have e : (builtinOps ρ os N).newFile pre.length a ⟨pre ++ (x :: mid) ++ b :: post, heap⟩ =
        (.ok (), ⟨pre ++ x' :: (mid ++ b :: post), heap⟩) := by
      simp only [builtinOps]
      rw [List.append_assoc, List.cons_append, BWorld.on_mid, h1]
      simp
    rw [e]
    obtain ⟨mid', b', post', extra', i1, i2, i3, i4, i5⟩ := ih (pre ++ [x']) (fun y hy => hm y (by simp [hy]))
    simp only [List.length_append, List.length_cons, List.length_nil, List.append_assoc, List.cons_append,
        List.nil_append] at i1
    refine ⟨x' :: mid', b', post', extra', ?_, by simp [i2], i3, ?_, i5⟩
    · simpa using i1
    · intro y hy
      rcases List.mem_cons.1 hy with rfl | hy
      · exact ⟨h2, h8⟩
      · exact i4 y hy

end

/-! ### Receiving data -/

theorem Heap.modify_write {heap : Heap} {r : Nat} {d c : Bytes} (h : heap[r]? = some ⟨d, d.length, false⟩) :
    heap.modify r (·.write c) = (.ok (), heap.set r ⟨d ++ c, (d ++ c).length, false⟩) := by
  simp [Heap.modify, h, FileObj.write, List.drop_eq_nil_of_le]

theorem Heap.modify_rewind {heap : Heap} {r p : Nat} {d : Bytes} (h : heap[r]? = some ⟨d, p, false⟩) :
    heap.modify r (·.rewind) = (.ok (), heap.set r ⟨d, 0, false⟩) := by
  simp [Heap.modify, h, FileObj.rewind]

/-- Cells other than `r` and cells not yet allocated are untouched. -/
def Others (heap heap' : Heap) (r : Nat) : Prop := ∀ i < heap.length, i ≠ r → heap'[i]? = heap[i]?

theorem Builtin.receive_open {os : Os} (hos : ∀ e, os.tempFile e = .ok ()) (c : Bytes) (b : Builtin)
    (heap : Heap) (n : Bytes) (r : Nat) (d : Bytes) (hb : b.Accepts) (ho : b.Open n r)
    (hh : heap[r]? = some ⟨d, d.length, false⟩) :
    ∃ b' heap' r', b.receive os c heap = (.ok none, b', heap') ∧ b'.Accepts ∧ b'.Open n r' ∧
      heap'[r']? = some ⟨d ++ c, (d ++ c).length, false⟩ ∧ Others heap heap' r ∧ (r' = r ∨ heap.length ≤ r') := by
  have hr : r < heap.length := (List.getElem?_eq_some_iff.1 hh).1
  have hset : ∀ o, Others heap (heap.set r o) r := by
    intro o i hi hne; rw [List.getElem?_set_ne (Ne.symm hne)]
  cases b with
  | memory h =>
    obtain ⟨args, act, file⟩ := h
    obtain ⟨ho1, ho2⟩ := ho
    simp only at ho1
    subst ho1
    cases act with
    | none => exact absurd rfl hb.1
    | some v =>
      cases v with
      | false => exact absurd rfl hb.2
      | true =>
        refine ⟨_, heap.set r ⟨d ++ c, (d ++ c).length, false⟩, r, ?_, hb, ⟨rfl, ho2⟩, by simp [hr], hset _, .inl rfl⟩
        simp [Builtin.receive, MemoryH.receive, Heap.modify_write hh]
  | temp h =>
    obtain ⟨args, hasS, file⟩ := h
    obtain ⟨f, ho1, ho2, ho3⟩ := ho
    simp only at ho1
    subst ho1 ho2
    refine ⟨_, heap.set f.ref ⟨d ++ c, (d ++ c).length, false⟩, f.ref, ?_, hb, ⟨f, rfl, rfl, ho3⟩, by simp [hr], hset _,
      .inl rfl⟩
    simp [Builtin.receive, TempH.receive, Heap.modify_write hh]
  | conv h =>
    obtain ⟨rec, settings, sw, ⟨margs, mact, mfile⟩, ⟨targs, thasS, tfile⟩⟩ := h
    obtain ⟨⟨h1, h2, h3⟩, h4⟩ := hb
    obtain ⟨o1, o2⟩ := ho
    simp only at h1 h2 h3 o1 o2
    cases settings with
    | none => simp at h1
    | some S =>
      cases sw with
      | true =>
        obtain ⟨f, ho1, ho2, ho3⟩ := o1 rfl
        simp only at ho1
        subst ho1 ho2
        refine ⟨.conv { received := rec + c.length, fileMax := some S, switched := true, memory := ⟨margs, mact, mfile⟩, temp := ⟨targs, thasS, some f⟩ }, heap.set f.ref ⟨d ++ c, (d ++ c).length, false⟩, f.ref, ?_,
          ⟨⟨rfl, h2, by simp⟩, fun h => h.elim⟩, ⟨fun _ => ⟨f, rfl, rfl, ho3⟩, by simp⟩,
          by simp [hr], hset _, .inl rfl⟩
        simp [Builtin.receive, ConvH.receive, TempH.receive, Heap.modify_write hh]
      | false =>
        have := h3 rfl
        subst this
        obtain ⟨ho1, a, ho2, ho3⟩ := o2 rfl
        simp only at ho1 ho2
        subst ho1 ho2
        by_cases hgt : (rec : Int) + c.length > S
        · have hrw := Heap.modify_rewind hh
          obtain ⟨A, hA⟩ : ∃ A : NewFileArgs, A = { a with contentLength := some 0 } := ⟨_, rfl⟩
          obtain ⟨U, hU⟩ : ∃ U : Uploaded, U = ⟨heap.length, false, setName a.fileName, 0, A⟩ := ⟨_, rfl⟩
          obtain ⟨T, hT⟩ : ∃ T : TempH, T = ⟨some A, true, some U⟩ := ⟨_, rfl⟩
          have hsw : ConvH.switch os ⟨rec, some S, false, ⟨some a, some true, some r⟩, ⟨targs, thasS, tfile⟩⟩ heap =
              (.ok (), ⟨rec, some S, true, ⟨some a, some true, some r⟩, T⟩,
                heap.set r ⟨d, d.length, false⟩ ++ [⟨d, d.length, false⟩]) := by
            have e1 : (heap.set r (⟨d, 0, false⟩ : FileObj))[r]? = some ⟨d, 0, false⟩ := by simp [hr]
            have e2 : (heap.set r (⟨d, d.length, false⟩ : FileObj) ++ [({} : FileObj)])[heap.length]? =
                some ⟨[], ([] : Bytes).length, false⟩ := by
              rw [List.getElem?_append_right (by simp)]; simp
            have e3 := Heap.modify_write (c := d) e2
            simp only [ConvH.switch, MemoryH.fileComplete]
            rw [hrw]
            simp only [e1, FileObj.readAll, TempH.newFile, hos, List.set_set, List.length_set, if_true,
              Bool.false_eq_true, if_false, List.drop_zero, reduceCtorEq]
            simp only [TempH.receive]
            rw [e3]
            simp [hT, hU, hA]
          have hcell : (heap.set r ⟨d, d.length, false⟩ ++ [⟨d, d.length, false⟩])[heap.length]? =
              some (⟨d, d.length, false⟩ : FileObj) := by
            rw [List.getElem?_append_right (by simp)]; simp
          have e4 := Heap.modify_write (c := c) hcell
          refine ⟨.conv ⟨rec + c.length, some S, true, ⟨some a, some true, some r⟩, T⟩,
            (heap.set r ⟨d, d.length, false⟩ ++ [(⟨d, d.length, false⟩ : FileObj)]).set heap.length ⟨d ++ c, (d ++ c).length, false⟩,
            heap.length, ?_, ⟨⟨rfl, fun _ => by rw [hT], by simp⟩, fun h => h.elim⟩,
            ⟨fun _ => ⟨U, by rw [hT], by rw [hU], by rw [hU, ← ho3]⟩, by simp⟩, by simp, ?_, .inr (le_refl _)⟩
          · have e5 : T.receive c (heap.set r ⟨d, d.length, false⟩ ++ [⟨d, d.length, false⟩]) = (.ok none, (heap.set r ⟨d, d.length, false⟩ ++ [(⟨d, d.length, false⟩ : FileObj)]).set heap.length ⟨d ++ c, (d ++ c).length, false⟩) := by
              rw [hT, TempH.receive]
              simp only [hU, e4]
            simp only [Builtin.receive, ConvH.receive]
            rw [if_pos ⟨trivial, hgt⟩, hsw]
            simp only [if_true, e5]
          · intro i hi hne
            rw [List.getElem?_set_ne (by omega), List.getElem?_append_left (by simpa using hi),
              List.getElem?_set_ne (Ne.symm hne)]
        · refine ⟨.conv { received := rec + c.length, fileMax := some S, switched := false, memory := ⟨some a, some true, some r⟩, temp := ⟨targs, thasS, tfile⟩ }, heap.set r ⟨d ++ c, (d ++ c).length, false⟩, r, ?_,
            ⟨⟨rfl, by simp, fun _ => rfl⟩, fun h => h.elim⟩, ⟨by simp, fun _ => ⟨rfl, a, rfl, ho3⟩⟩,
            by simp [hr], hset _, .inl rfl⟩
          simp only [Builtin.receive, ConvH.receive]
          rw [if_neg (by intro h; exact hgt h.2)]
          simp [MemoryH.receive, Heap.modify_write hh]

theorem Builtin.complete_open (size : Nat) (b : Builtin)
    (heap : Heap) (n : Bytes) (r : Nat) (d : Bytes) (hb : b.Accepts) (ho : b.Open n r)
    (hh : heap[r]? = some ⟨d, d.length, false⟩) :
    ∃ b' f, b.fileComplete size heap = (.ok (some f), b', heap.set r ⟨d, 0, false⟩) ∧ b'.Accepts ∧
      f.ref = r ∧ f.name = setName n ∧ f.size = size := by
  cases b with
  | memory h =>
    obtain ⟨args, act, file⟩ := h
    obtain ⟨ho1, a, ho2, ho3⟩ := ho
    simp only at ho1 ho2
    subst ho1 ho2
    cases act with
    | none => exact absurd rfl hb.1
    | some v =>
      cases v with
      | false => exact absurd rfl hb.2
      | true =>
        refine ⟨_, _, by simp only [Builtin.fileComplete, MemoryH.fileComplete, Heap.modify_rewind hh]; rfl, hb, rfl,
          by simp [ho3], rfl⟩
  | temp h =>
    obtain ⟨args, hasS, file⟩ := h
    obtain ⟨f, ho1, ho2, ho3⟩ := ho
    simp only at ho1
    subst ho1 ho2
    exact ⟨.temp ⟨args, hasS, some { f with size := size }⟩, { f with size := size },
      by simp only [Builtin.fileComplete, TempH.fileComplete, Heap.modify_rewind hh], hb, rfl, ho3, rfl⟩
  | conv h =>
    obtain ⟨rec, settings, sw, ⟨margs, mact, mfile⟩, ⟨targs, thasS, tfile⟩⟩ := h
    obtain ⟨⟨h1, h2, h3⟩, h4⟩ := hb
    obtain ⟨o1, o2⟩ := ho
    simp only at h1 h2 h3 o1 o2
    cases sw with
    | true =>
      obtain ⟨f, ho1, ho2, ho3⟩ := o1 rfl
      simp only at ho1
      subst ho1 ho2
      exact ⟨.conv ⟨rec, settings, true, ⟨margs, mact, mfile⟩, ⟨targs, thasS, some { f with size := size }⟩⟩,
        { f with size := size }, by simp only [Builtin.fileComplete, ConvH.fileComplete, TempH.fileComplete, if_true,
        Heap.modify_rewind hh], ⟨⟨h1, h2, by simp⟩, fun h => h.elim⟩, rfl, ho3, rfl⟩
    | false =>
      have := h3 rfl
      subst this
      obtain ⟨ho1, a, ho2, ho3⟩ := o2 rfl
      simp only at ho1 ho2
      subst ho1 ho2
      exact ⟨.conv ⟨rec, settings, false, ⟨some a, some true, some r⟩, ⟨targs, thasS, tfile⟩⟩,
        ⟨r, true, setName a.fileName, size, a⟩,
        by simp only [Builtin.fileComplete, ConvH.fileComplete, MemoryH.fileComplete, if_false,
          Bool.false_eq_true, Heap.modify_rewind hh], ⟨⟨h1, by simp, fun _ => rfl⟩, fun h => h.elim⟩, rfl,
        by simp [ho3], rfl⟩

/-! ### The loops over the handlers -/

theorem BWorld.eta (w : BWorld) : w = ⟨w.hs, w.heap⟩ := rfl

/-- The handlers: some that found the request too large, one that takes files, some more. -/
structure Handlers (N : Nat) (hs mid : List Builtin) (b : Builtin) (post : List Builtin) : Prop where
  split : hs = mid ++ b :: post
  count : hs.length = N
  inactive : ∀ x ∈ mid, x.Init ∧ x.Inactive
  accepts : b.Accepts
  init : ∀ x ∈ post, x.Init

/-- The files `done` lie in the heap, each in a place of its own. -/
def Stored (heap : Heap) (done : List (Bytes × Uploaded × Bytes)) : Prop :=
  (∀ p ∈ done, p.2.1.size = p.2.2.length ∧ p.2.1.name = setName p.1 ∧
    heap[p.2.1.ref]? = some ⟨p.2.2, 0, false⟩) ∧ (done.map fun p => p.2.1.ref).Nodup

theorem Stored.others {heap heap' : Heap} {r : Nat} {done : List (Bytes × Uploaded × Bytes)}
    (h : Stored heap done) (ho : Others heap heap' r) (hr : ∀ p ∈ done, p.2.1.ref ≠ r) : Stored heap' done := by
  refine ⟨fun p hp => ?_, h.2⟩
  obtain ⟨h1, h2, h3⟩ := h.1 p hp
  refine ⟨h1, h2, ?_⟩
  rw [ho _ (List.getElem?_eq_some_iff.1 h3).1 (hr p hp)]
  exact h3

def BReady (N : Nat) (w : BWorld) (done : List (Bytes × Uploaded × Bytes)) : Prop :=
  (∃ mid b post, Handlers N w.hs mid b post) ∧ Stored w.heap done

def BBusy (N : Nat) (w : BWorld) (cs : List Nat) (done : List (Bytes × Uploaded × Bytes)) (n d : Bytes) : Prop :=
  Stored w.heap done ∧ ∃ mid b post r, Handlers N w.hs mid b post ∧ b.Open n r ∧
    w.heap[r]? = some ⟨d, d.length, false⟩ ∧ (∀ p ∈ done, p.2.1.ref ≠ r) ∧ cs.length = N ∧
    cs.getD mid.length 0 = d.length

section
variable {ρ : Type} {os : Os} (hos : ∀ e, os.tempFile e = .ok ())

theorem Builtin.receive_inactive {b : Builtin} (h : b.Inactive) (c : Bytes) (heap : Heap) :
    b.receive os c heap = (.ok (some c), b, heap) := by
  cases b with
  | memory h' =>
    obtain ⟨args, act, file⟩ := h'
    change act = some false at h
    subst h
    rfl
  | temp => exact h.elim
  | conv => exact h.elim

theorem Builtin.complete_inactive {b : Builtin} (h : b.Inactive) (size : Nat) (heap : Heap) :
    b.fileComplete size heap = (.ok none, b, heap) := by
  cases b with
  | memory h' =>
    obtain ⟨args, act, file⟩ := h'
    change act = some false at h
    subst h
    rfl
  | temp => exact h.elim
  | conv => exact h.elim

include hos in
theorem feedChunk_accept (N : Nat) (b b' : Builtin) (post : List Builtin) (heap heap' : Heap) (c : Bytes)
    (hb : b.receive os c heap = (.ok none, b', heap')) :
    ∀ (mid pre : List Builtin) (cs : List Nat), (∀ x ∈ mid, x.Inactive) →
      pre.length + mid.length < cs.length →
      ∃ cs', feedChunk (builtinOps ρ os N) (List.range' pre.length (mid.length + 1 + post.length)) c cs
          ⟨pre ++ mid ++ b :: post, heap⟩ = (.ok (), cs', ⟨pre ++ mid ++ b' :: post, heap'⟩) ∧
        cs'.length = cs.length ∧
        cs'.getD (pre.length + mid.length) 0 = cs.getD (pre.length + mid.length) 0 + c.length := by
  intro mid
  induction mid with
  | nil =>
    intro pre cs _ hlen
    rw [List.length_nil, Nat.zero_add, Nat.add_comm 1, List.range'_succ, feedChunk]
    have e : (builtinOps ρ os N).receive pre.length c (cs.getD pre.length 0) ⟨pre ++ [] ++ b :: post, heap⟩ =
        (.ok none, ⟨pre ++ b' :: post, heap'⟩) := by
      simp only [builtinOps, List.append_nil]
      rw [BWorld.on_mid, hb]
    rw [e]
    refine ⟨_, by rw [List.append_nil], by simp, ?_⟩
    simp at hlen
    simp [List.getD, hlen]
  | cons x mid ih =>
    intro pre cs hm hlen
    rw [List.length_cons, show mid.length + 1 + 1 + post.length = (mid.length + 1 + post.length) + 1 by omega,
      List.range'_succ, feedChunk]
    have e : (builtinOps ρ os N).receive pre.length c (cs.getD pre.length 0) ⟨pre ++ (x :: mid) ++ b :: post, heap⟩ =
        (.ok (some c), ⟨pre ++ x :: (mid ++ b :: post), heap⟩) := by
      simp only [builtinOps]
      rw [List.append_assoc, List.cons_append, BWorld.on_mid, Builtin.receive_inactive (hm x (by simp))]
    rw [e]
    obtain ⟨cs', i1, i2, i3⟩ := ih (pre ++ [x]) (cs.set pre.length (cs.getD pre.length 0 + c.length))
      (fun y hy => hm y (by simp [hy])) (by simp at hlen ⊢; omega)
    simp only [List.length_append, List.length_cons, List.length_nil, List.append_assoc, List.cons_append,
        List.nil_append, List.length_set] at i1 i2 i3
    refine ⟨cs', ?_, i2, ?_⟩
    · simpa using i1
    · rw [show pre.length + (mid.length + 1) = pre.length + (0 + 1) + mid.length by omega, i3]
      simp only [List.getD]
      rw [List.getElem?_set_ne (by omega)]

include hos in
theorem completeLoop_accept (N : Nat) (b b' : Builtin) (post : List Builtin) (heap heap' : Heap) (f : Uploaded)
    (cs : List Nat) : ∀ (mid pre : List Builtin), (∀ x ∈ mid, x.Inactive) →
      b.fileComplete (cs.getD (pre.length + mid.length) 0) heap = (.ok (some f), b', heap') → f.size ≠ 0 →
      completeLoop (builtinOps ρ os N) cs (List.range' pre.length (mid.length + 1 + post.length))
          ⟨pre ++ mid ++ b :: post, heap⟩ = (.ok (some f), ⟨pre ++ mid ++ b' :: post, heap'⟩) := by
  intro mid
  induction mid with
  | nil =>
    intro pre _ hb hf
    rw [List.length_nil, Nat.zero_add, Nat.add_comm 1, List.range'_succ, completeLoop]
    have e : (builtinOps ρ os N).fileComplete pre.length (cs.getD pre.length 0) ⟨pre ++ [] ++ b :: post, heap⟩ =
        (.ok (some f), ⟨pre ++ b' :: post, heap'⟩) := by
      simp only [builtinOps, List.append_nil]
      rw [BWorld.on_mid]
      simp only [List.length_nil, Nat.add_zero] at hb
      rw [hb]
    rw [e]
    simp [builtinOps, hf]
  | cons x mid ih =>
    intro pre hm hb hf
    rw [List.length_cons, show mid.length + 1 + 1 + post.length = (mid.length + 1 + post.length) + 1 by omega,
      List.range'_succ, completeLoop]
    have e : (builtinOps ρ os N).fileComplete pre.length (cs.getD pre.length 0) ⟨pre ++ (x :: mid) ++ b :: post, heap⟩ =
        (.ok none, ⟨pre ++ x :: (mid ++ b :: post), heap⟩) := by
      simp only [builtinOps]
      rw [List.append_assoc, List.cons_append, BWorld.on_mid, Builtin.complete_inactive (hm x (by simp))]
    rw [e]
    have i1 := ih (pre ++ [x]) (fun y hy => hm y (by simp [hy])) (by
      rw [← hb]; congr 2; simp; omega) hf
    simp only [List.length_append, List.length_cons, List.length_nil, List.append_assoc, List.cons_append,
        List.nil_append] at i1
    simpa using i1

theorem uploadCompleteLoop_builtin (N : Nat) : ∀ (l : List Nat) (w : BWorld),
    uploadCompleteLoop (builtinOps ρ os N) l w = (.ok (), w)
  | [], _ => rfl
  | _ :: l, w => by
    rw [uploadCompleteLoop]
    exact uploadCompleteLoop_builtin N l w

include hos in
/-- The built-in handlers store files. -/
theorem builtin_stores (N : Nat) : Stores (builtinOps ρ os N) (BReady N) (BBusy N) where
  opens := by
    rintro ⟨hs, heap⟩ done a - ⟨⟨mid, b, post, hH⟩, hst⟩
    obtain ⟨mid', b', post', extra, h1, h2, h3, h4, h5, h6, h7⟩ :=
      newFiles_accept (ρ := ρ) hos a N b post heap hH.accepts hH.init mid [] hH.inactive
    have hN : N = mid.length + 1 + post.length := by
      rw [← hH.count]; have := hH.split; simp only at this ⊢; rw [this]; simp; omega
    have hs' := hH.split
    simp only at hs'
    subst hs'
    refine ⟨⟨mid' ++ b' :: post', heap ++ ({} : FileObj) :: extra⟩, ?_, ?_, mid', b', post', heap.length,
      ⟨rfl, ?_, h4, h5, h6⟩, h7, ?_, ?_, ?_, ?_⟩
    · rw [List.range_eq_range']
      change newFiles _ a (List.range' 0 N) _ = _
      rw [hN] at h1 ⊢
      simpa using h1
    · refine ⟨fun p hp => ?_, hst.2⟩
      obtain ⟨a1, a2, a3⟩ := hst.1 p hp
      refine ⟨a1, a2, ?_⟩
      rw [List.getElem?_append_left (List.getElem?_eq_some_iff.1 a3).1]
      exact a3
    · simp; omega
    · simp
    · intro p hp
      have := (List.getElem?_eq_some_iff.1 (hst.1 p hp).2.2).1
      simp only at this
      omega
    · simp [builtinOps]
    · change (List.replicate N 0).getD mid'.length 0 = 0
      rw [List.getD, List.getElem?_replicate]
      split <;> rfl
  feeds := by
    rintro ⟨hs, heap⟩ cs done n d c ⟨hst, mid, b, post, r, hH, ho, hcell, hne, hlen, hcs⟩
    obtain ⟨b', heap', r', h1, h2, h3, h4, h5, h6⟩ := Builtin.receive_open hos c b heap n r d hH.accepts ho hcell
    have hN : N = mid.length + 1 + post.length := by
      rw [← hH.count]; have := hH.split; simp only at this ⊢; rw [this]; simp; omega
    have hs' := hH.split
    simp only at hs'
    subst hs'
    obtain ⟨cs', i1, i2, i3⟩ := feedChunk_accept (ρ := ρ) hos N b b' post heap heap' c h1 mid [] cs
      (fun x hx => (hH.inactive x hx).2) (by simp; omega)
    refine ⟨cs', ⟨mid ++ b' :: post, heap'⟩, ?_, hst.others h5 hne, mid, b', post, r', ⟨rfl, ?_, hH.inactive, h2, hH.init⟩,
      h3, h4, ?_, by omega, ?_⟩
    · rw [List.range_eq_range']
      change feedChunk _ (List.range' 0 N) _ _ _ = _
      rw [hN] at i1 ⊢
      simpa using i1
    · simp; omega
    · intro p hp
      rcases h6 with rfl | h6
      · exact hne p hp
      · have := (List.getElem?_eq_some_iff.1 (hst.1 p hp).2.2).1
        simp only at this
        omega
    · simp only [List.length_nil, Nat.zero_add] at i3
      rw [i3, hcs, List.length_append]
  completes := by
    rintro ⟨hs, heap⟩ cs done n d ⟨hst, mid, b, post, r, hH, ho, hcell, hne, hlen, hcs⟩ hd
    obtain ⟨b', f, h1, h2, h3, h4, h5⟩ := Builtin.complete_open (cs.getD mid.length 0) b heap n r d hH.accepts ho hcell
    have hr : r < heap.length := (List.getElem?_eq_some_iff.1 hcell).1
    have hN : N = mid.length + 1 + post.length := by
      rw [← hH.count]; have := hH.split; simp only at this ⊢; rw [this]; simp; omega
    have hs' := hH.split
    simp only at hs'
    subst hs'
    have i1 := completeLoop_accept (ρ := ρ) hos N b b' post heap _ f cs mid [] (fun x hx => (hH.inactive x hx).2)
      (by simpa using h1) (by rw [h5, hcs]; simpa using hd)
    refine ⟨f, ⟨mid ++ b' :: post, heap.set r ⟨d, 0, false⟩⟩, ?_, ⟨mid, b', post, rfl, ?_, hH.inactive, h2, hH.init⟩, ?_⟩
    · rw [List.range_eq_range']
      change completeLoop _ _ (List.range' 0 N) _ = _
      rw [hN] at i1 ⊢
      simpa using i1
    · simp; omega
    · refine ⟨fun p hp => ?_, ?_⟩
      rotate_left
      · rw [List.map_append, List.nodup_append]
        refine ⟨hst.2, by simp, ?_⟩
        rintro a ha b hb rfl
        obtain ⟨p, hp, rfl⟩ := List.mem_map.1 ha
        simp only [List.map_cons, List.map_nil, List.mem_singleton] at hb
        exact hne p hp (hb.trans h3)
      rcases List.mem_append.1 hp with hp | hp
      · exact (hst.others (heap' := heap.set r ⟨d, 0, false⟩) (r := r)
          (fun i _ hi => by rw [List.getElem?_set_ne (Ne.symm hi)]) hne).1 p hp
      · simp only [List.mem_singleton] at hp
        subst hp
        exact ⟨by rw [h5, hcs], h4, by simp [h3, hr]⟩
  finishes := fun w done h => ⟨w, uploadCompleteLoop_builtin N _ w, h⟩

end

end Verif
