import Verif.Proofs.Healthy
/-!
# What the upload handlers of the package can raise (C115)
-/

namespace Verif
open Spec

section
variable {ρ : Type} {os : Os} {n : Nat}

/-- Handlers of which only the last may keep a file from the handlers after it. -/
structure BIdle (n : Nat) (w : BWorld) : Prop where
  count : w.hs.length = n
  told : ∀ b ∈ w.hs, b.Told
  passes : ∀ i b, w.hs[i]? = some b → i + 1 < n → b.Passes

/-- … and all of them hold the file. -/
structure BOpen (n : Nat) (w : BWorld) : Prop extends BIdle n w where
  holds : ∀ b ∈ w.hs, b.Holds w.heap

theorem BIdle.set {w : BWorld} (h : BIdle n w) {i : Nat} {b b' : Builtin} (hb : w.hs[i]? = some b) (h1 : b'.Told)
    (h2 : b.Passes → b'.Passes) (heap : Heap) : BIdle n ⟨w.hs.set i b', heap⟩ := by
  refine ⟨by simpa using h.count, fun x hx => ?_, fun j x hj hn => ?_⟩
  · rcases List.mem_or_eq_of_mem_set hx with h3 | rfl
    · exact h.told x h3
    · exact h1
  · by_cases e : i = j
    · subst e
      rw [List.getElem?_set_self (List.getElem?_eq_some_iff.1 hb).1] at hj
      cases hj
      exact h2 (h.passes i b hb hn)
    · rw [List.getElem?_set_ne e] at hj
      exact h.passes j x hj hn

/-- The handlers before `k` hold the file. -/
def HoldUpTo (k : Nat) (w : BWorld) : Prop := ∀ j b, j < k → w.hs[j]? = some b → b.Holds w.heap

theorem HoldUpTo.set {w : BWorld} {k : Nat} (h : HoldUpTo k w) {b' : Builtin} {heap : Heap} (hk : k < w.hs.length)
    (hb : b'.Holds heap) (g : w.heap.Grows heap) : HoldUpTo (k + 1) ⟨w.hs.set k b', heap⟩ := by
  intro j b hj hjb
  by_cases e : k = j
  · subst e
    simp only [List.getElem?_set_self hk, Option.some.injEq] at hjb
    subst hjb; exact hb
  · simp only [List.getElem?_set_ne e] at hjb
    exact (h j b (by omega) hjb).mono g

theorem HoldUpTo.open {w : BWorld} (h : BIdle n w) (hh : HoldUpTo n w) : BOpen n w :=
  ⟨h, fun b hb => by
    obtain ⟨i, hi, rfl⟩ := List.getElem_of_mem hb
    exact hh i _ (by have := h.count; omega) (by simp [hi])⟩

theorem BOpen.set {w : BWorld} (h : BOpen n w) {i : Nat} {b b' : Builtin} {heap : Heap} (hb : w.hs[i]? = some b)
    (h1 : b'.Told) (h2 : b.Passes → b'.Passes) (h3 : b'.Holds heap) (g : w.heap.Grows heap) :
    BOpen n ⟨w.hs.set i b', heap⟩ := by
  refine ⟨h.toBIdle.set hb h1 h2 heap, fun x hx => ?_⟩
  rcases List.mem_or_eq_of_mem_set hx with h4 | rfl
  · exact (h.holds x h4).mono g
  · exact h3

/-- The operating system does not raise the exceptions that only handlers raise. -/
def Os.Plain (os : Os) : Prop :=
  ∀ e, os.Raises e → e ≠ .skipFile ∧ e ≠ .stopFutureHandlers ∧ ∀ b, e ≠ .stopUpload b

theorem newFiles_healthy (hos : os.Plain) (a : NewFileArgs) : ∀ (k m : Nat) (w : BWorld), k + m = n → BIdle n w → HoldUpTo k w →
    ∀ r w', newFiles (builtinOps ρ os n) a (List.range' k m) w = (r, w') →
      (r = .ok () → BOpen n w') ∧ ∀ e, r = .error e → os.Raises e := by
  intro k m
  induction m generalizing k with
  | zero =>
    intro w hk hi hh r w' h
    simp only [List.range'_zero, newFiles, Prod.mk.injEq] at h
    obtain ⟨rfl, rfl⟩ := h
    have : k = n := by omega
    subst this
    exact ⟨fun _ => hh.open hi, by simp⟩
  | succ m ih =>
    intro w hk hi hh r w' h
    have hlt : k < w.hs.length := by have := hi.count; omega
    rw [List.range'_succ, newFiles] at h
    have hb : w.hs[k]? = some w.hs[k] := by simp [hlt]
    rcases hm : (w.hs[k]).newFile os a w.heap with ⟨r1, b1, heap1⟩
    obtain ⟨a1, a2, a3, a4⟩ := Builtin.newFile_healthy (hi.told _ (by simp)) hm
    have e : (builtinOps ρ os n).newFile k a w = (r1, ⟨w.hs.set k b1, heap1⟩) := by
      simp only [builtinOps, BWorld.on, hb, hm]
    rw [e] at h
    rcases a4 with ⟨rfl, a4⟩ | ⟨rfl, a4, a5⟩ | ⟨e', rfl, a4⟩
    · exact ih (k + 1) _ (by omega) (hi.set hb a1 a3 heap1) (hh.set hlt a4 a2) r w' h
    · simp only [Prod.mk.injEq] at h
      obtain ⟨rfl, rfl⟩ := h
      have : k + 1 = n := by
        by_contra hx
        exact a5 (hi.passes k _ hb (by omega))
      refine ⟨fun _ => (HoldUpTo.open (hi.set hb a1 a3 heap1) ?_), by simp⟩
      rw [← this]; exact hh.set hlt a4 a2
    · have hne := (hos _ a4).2.1
      cases e' <;> simp only [Prod.mk.injEq] at h
      case stopFutureHandlers => exact absurd rfl hne
      all_goals
        obtain ⟨rfl, rfl⟩ := h
        refine ⟨by simp, fun x hx => ?_⟩
        simp only [Except.error.injEq] at hx
        subst hx; exact a4

theorem feedChunk_healthy : ∀ (is : List Nat) (_ : ∀ i ∈ is, i < n) (d : Bytes) (cs : List Nat) (w : BWorld), BOpen n w →
    ∀ r cs' w', feedChunk (builtinOps ρ os n) is d cs w = (r, cs', w') →
      (r = .ok () → BOpen n w') ∧ ∀ e, r = .error e → os.Raises e := by
  intro is
  induction is with
  | nil =>
    intro _ d cs w hw r cs' w' h
    simp only [feedChunk, Prod.mk.injEq] at h
    obtain ⟨rfl, rfl, rfl⟩ := h
    exact ⟨fun _ => hw, by simp⟩
  | cons k is ih =>
    intro hlt d cs w hw r cs' w' h
    have hk : k < w.hs.length := by have := hw.count; have := hlt k (by simp); omega
    have hb : w.hs[k]? = some w.hs[k] := by simp [hk]
    rcases hm : (w.hs[k]).receive os d w.heap with ⟨r1, b1, heap1⟩
    obtain ⟨a1, a2, a3, a4⟩ := Builtin.receive_healthy (hw.told _ (by simp)) (hw.holds _ (by simp)) hm
    have e : (builtinOps ρ os n).receive k d (cs.getD k 0) w = (r1, ⟨w.hs.set k b1, heap1⟩) := by
      simp only [builtinOps, BWorld.on, hb, hm]
    rw [feedChunk, e] at h
    rcases a4 with ⟨(_ | x), rfl, a4⟩ | ⟨e', rfl, a4⟩
    · simp only [Prod.mk.injEq] at h
      obtain ⟨rfl, rfl, rfl⟩ := h
      exact ⟨fun _ => hw.set hb a1 a3 a4 a2, by simp⟩
    · exact ih (fun i hi => hlt i (by simp [hi])) _ _ _ (hw.set hb a1 a3 a4 a2) r cs' w' h
    · simp only [Prod.mk.injEq] at h
      obtain ⟨rfl, rfl, rfl⟩ := h
      exact ⟨by simp, fun x hx => by simp only [Except.error.injEq] at hx; subst hx; exact a4⟩

theorem completeLoop_healthy (cs : List Nat) : ∀ (is : List Nat) (_ : ∀ i ∈ is, i < n) (w : BWorld), BOpen n w →
    ∀ r w', completeLoop (builtinOps ρ os n) cs is w = (r, w') → BOpen n w' ∧ ∃ f, r = .ok f := by
  intro is
  induction is with
  | nil =>
    intro _ w hw r w' h
    simp only [completeLoop, Prod.mk.injEq] at h
    obtain ⟨rfl, rfl⟩ := h
    exact ⟨hw, _, rfl⟩
  | cons k is ih =>
    intro hlt w hw r w' h
    have hk : k < w.hs.length := by have := hw.count; have := hlt k (by simp); omega
    have hb : w.hs[k]? = some w.hs[k] := by simp [hk]
    rcases hm : (w.hs[k]).fileComplete (cs.getD k 0) w.heap with ⟨r1, b1, heap1⟩
    obtain ⟨a1, a2, a3, a4, x, rfl⟩ := Builtin.fileComplete_healthy (hw.told _ (by simp)) (hw.holds _ (by simp)) hm
    have e : (builtinOps ρ os n).fileComplete k (cs.getD k 0) w = (.ok x, ⟨w.hs.set k b1, heap1⟩) := by
      simp only [builtinOps, BWorld.on, hb, hm]
    rw [completeLoop, e] at h
    have hset := hw.set hb a1 a3 a4 a2
    have hrec := ih (fun i hi => hlt i (by simp [hi])) _ hset
    cases x with
    | none => exact hrec r w' h
    | some f =>
      simp only at h
      split at h
      · simp only [Prod.mk.injEq] at h
        obtain ⟨rfl, rfl⟩ := h
        exact ⟨hset, _, rfl⟩
      · exact hrec r w' h

theorem builtin_phases (hos : os.Plain) : (builtinOps ρ os n).Phases (BIdle n) (BOpen n) os.Raises where
  idle := fun _ h => h.toBIdle
  newFiles := fun a w r w' hw h => by
    have e : List.range (builtinOps ρ os n).count = List.range' 0 n := by rw [List.range_eq_range']; rfl
    rw [e] at h
    exact newFiles_healthy hos a 0 n w (by omega) hw (fun j _ hj => absurd hj (by omega)) r w' h
  feed := fun d cs w r cs' w' hw h => feedChunk_healthy _ (fun i hi => by simpa [builtinOps] using hi) d cs w hw r cs' w' h
  complete := fun cs w r w' hw h => by
    obtain ⟨h1, f, rfl⟩ := completeLoop_healthy cs _ (fun i hi => by simpa [builtinOps] using hi) w hw r w' h
    exact ⟨fun _ => h1.toBIdle, by simp⟩
  uploadComplete := fun w _ => by rw [uploadCompleteLoop_builtin]
  plain := fun e he => ⟨(hos e he).1, (hos e he).2.2⟩

/-! ### All lists of handlers -/

/-- All files in the heap are open (if `k`; otherwise nothing is said). -/
def Heap.Alive (k : Bool) (h : Heap) : Prop := k = true → ∀ o ∈ h, o.closed = false

/-- What an operation on the heap may raise. -/
def Bad (k : Bool) (e : Exc) : Prop := e = .attributeError ∨ (k = false ∧ e = .valueError)

/-- All handlers are there and all files are open. -/
structure BAll (k : Bool) (n : Nat) (w : BWorld) : Prop where
  count : w.hs.length = n
  alive : w.heap.Alive k

variable {k : Bool}

theorem Heap.Alive.append {h : Heap} (a : h.Alive k) : Heap.Alive k (h ++ [({} : FileObj)]) := by
  intro hk o ho
  rcases List.mem_append.1 ho with ho | ho
  · exact a hk o ho
  · simp at ho; subst ho; rfl

theorem Heap.Alive.set {h : Heap} (a : h.Alive k) (r : Nat) {o : FileObj} (ho : k = true → o.closed = false) :
    Heap.Alive k (h.set r o) := by
  intro hk x hx
  rcases List.mem_or_eq_of_mem_set hx with hx | rfl
  · exact a hk x hx
  · exact ho hk

/-- What the handlers may raise. -/
def Fails (k : Bool) (os : Os) (e : Exc) : Prop := Bad k e ∨ os.Raises e

theorem Heap.Alive.modify {h : Heap} (a : h.Alive k) {r : Nat} {f : FileObj → Except Exc FileObj}
    (hf : ∀ o : FileObj, if o.closed then f o = .error .valueError else ∃ o', f o = .ok o' ∧ o'.closed = false)
    {x h'} (hm : h.modify r f = (x, h')) : h'.Alive k ∧ ∀ e, x = .error e → Bad k e := by
  unfold Heap.modify at hm
  split at hm
  · cases hm
    exact ⟨a, by simp [Bad]⟩
  · rename_i o ho
    have h1 := hf o
    split at h1
    · rename_i hc
      rw [h1] at hm
      cases hm
      refine ⟨a, fun e he => .inr ⟨?_, by simpa using he.symm⟩⟩
      cases k with
      | false => rfl
      | true => rw [a rfl o (List.mem_of_getElem? ho)] at hc; cases hc
    · obtain ⟨o', h1, h2⟩ := h1
      rw [h1] at hm
      cases hm
      exact ⟨a.set _ (fun _ => h2), by simp⟩

theorem write_alive (d : Bytes) (o : FileObj) :
    if o.closed then o.write d = .error .valueError else ∃ o', o.write d = .ok o' ∧ o'.closed = false := by
  unfold FileObj.write
  split
  · rfl
  · rename_i h
    exact ⟨_, rfl, by simpa using h⟩

theorem rewind_alive (o : FileObj) :
    if o.closed then o.rewind = .error .valueError else ∃ o', o.rewind = .ok o' ∧ o'.closed = false := by
  unfold FileObj.rewind
  split
  · rfl
  · rename_i h
    exact ⟨_, rfl, by simpa using h⟩

theorem MemoryH.receive_alive {m : MemoryH} {d : Bytes} {h h' : Heap} {r} (a : h.Alive k) (hr : m.receive d h = (r, h')) :
    h'.Alive k ∧ ∀ e, r = .error e → Bad k e := by
  unfold MemoryH.receive at hr
  split at hr
  · cases hr; exact ⟨a, by simp [Bad]⟩
  · cases hr; exact ⟨a, by simp [Bad]⟩
  · split at hr
    · cases hr; exact ⟨a, by simp [Bad]⟩
    · rename_i x _
      rcases hm : h.modify x (·.write d) with ⟨(e | _), h1⟩
      all_goals
        obtain ⟨b1, b2⟩ := a.modify (fun o => write_alive d o) hm
        rw [hm] at hr
        cases hr
        exact ⟨b1, fun e he => by first | (simp at he; done) | exact b2 e (by simpa using he)⟩

theorem TempH.receive_alive {m : TempH} {d : Bytes} {h h' : Heap} {r} (a : h.Alive k) (hr : m.receive d h = (r, h')) :
    h'.Alive k ∧ ∀ e, r = .error e → Bad k e := by
  unfold TempH.receive at hr
  split at hr
  · cases hr; exact ⟨a, by simp [Bad]⟩
  · rename_i x _
    rcases hm : h.modify x.ref (·.write d) with ⟨(e | _), h1⟩
    all_goals
      obtain ⟨b1, b2⟩ := a.modify (fun o => write_alive d o) hm
      rw [hm] at hr
      cases hr
      exact ⟨b1, fun e he => by first | (simp at he; done) | exact b2 e (by simpa using he)⟩

theorem MemoryH.fileComplete_alive {m : MemoryH} {sz : Nat} {h h' : Heap} {r} (a : h.Alive k)
    (hr : m.fileComplete sz h = (r, h')) : h'.Alive k ∧ ∀ e, r = .error e → Bad k e := by
  unfold MemoryH.fileComplete at hr
  split at hr
  · cases hr; exact ⟨a, by simp [Bad]⟩
  · cases hr; exact ⟨a, by simp [Bad]⟩
  · split at hr
    · rename_i x _ _ _
      rcases hm : h.modify x (·.rewind) with ⟨(e | _), h1⟩
      all_goals
        obtain ⟨b1, b2⟩ := a.modify (fun o => rewind_alive o) hm
        rw [hm] at hr
        cases hr
        exact ⟨b1, fun e he => by first | (simp at he; done) | exact b2 e (by simpa using he)⟩
    · cases hr; exact ⟨a, by simp [Bad]⟩

theorem TempH.fileComplete_alive {m m' : TempH} {sz : Nat} {h h' : Heap} {r} (a : h.Alive k)
    (hr : m.fileComplete sz h = (r, m', h')) : h'.Alive k ∧ ∀ e, r = .error e → Bad k e := by
  unfold TempH.fileComplete at hr
  split at hr
  · cases hr; exact ⟨a, by simp [Bad]⟩
  · rename_i x _
    rcases hm : h.modify x.ref (·.rewind) with ⟨(e | _), h1⟩
    all_goals
      obtain ⟨b1, b2⟩ := a.modify (fun o => rewind_alive o) hm
      rw [hm] at hr
      cases hr
      exact ⟨b1, fun e he => by first | (simp at he; done) | exact b2 e (by simpa using he)⟩

theorem TempH.newFile_alive {m m' : TempH} {args : NewFileArgs} {h h' : Heap} {r} (a : h.Alive k)
    (hr : m.newFile os args h = (r, m', h')) : h'.Alive k ∧ ∀ e, r = .error e → Fails k os e := by
  unfold TempH.newFile at hr
  simp only at hr
  split at hr
  · cases hr; exact ⟨a, fun e he => .inl (.inl (by simpa using he.symm))⟩
  · split at hr
    · rename_i e' he'
      cases hr; exact ⟨a, fun e he => .inr ⟨_, by simp at he; subst he; exact he'⟩⟩
    · cases hr; exact ⟨a.append, by simp⟩

theorem MemoryH.newFile_alive {m m' : MemoryH} {args : NewFileArgs} {h h' : Heap} {r} (a : h.Alive k)
    (hr : m.newFile args h = (r, m', h')) :
    h'.Alive k ∧ ∀ e, r = .error e → e = .stopFutureHandlers ∨ Bad k e := by
  unfold MemoryH.newFile at hr
  simp only at hr
  split at hr
  · cases hr; exact ⟨a, by simp [Bad]⟩
  · cases hr; exact ⟨a, by simp [Bad]⟩
  · cases hr; exact ⟨a.append, by simp⟩

theorem Builtin.newFile_alive {b b' : Builtin} {args : NewFileArgs} {h h' : Heap} {r} (a : h.Alive k)
    (hr : b.newFile os args h = (r, b', h')) : h'.Alive k ∧ ∀ e, r = .error e → e = .stopFutureHandlers ∨ Fails k os e := by
  cases b with
  | memory m =>
    simp only [Builtin.newFile] at hr
    rcases hm : m.newFile args h with ⟨r1, m1, h1⟩
    rw [hm] at hr; cases hr
    obtain ⟨c1, c2⟩ := MemoryH.newFile_alive a hm
    exact ⟨c1, fun e he => (c2 e he).imp id .inl⟩
  | temp t =>
    simp only [Builtin.newFile] at hr
    rcases hm : t.newFile os args h with ⟨r1, m1, h1⟩
    rw [hm] at hr; cases hr
    obtain ⟨c1, c2⟩ := TempH.newFile_alive a hm
    exact ⟨c1, fun e he => .inr (c2 e he)⟩
  | conv c =>
    simp only [Builtin.newFile, ConvH.newFile] at hr
    by_cases hs : c.switched = true
    · rw [if_pos hs] at hr
      rcases hm : c.temp.newFile os args h with ⟨r1, m1, h1⟩
      rw [hm] at hr; cases hr
      obtain ⟨c1, c2⟩ := TempH.newFile_alive a hm
      exact ⟨c1, fun e he => .inr (c2 e he)⟩
    · rw [if_neg hs] at hr
      rcases hm : c.memory.newFile args h with ⟨r1, m1, h1⟩
      rw [hm] at hr; cases hr
      obtain ⟨c1, c2⟩ := MemoryH.newFile_alive a hm
      exact ⟨c1, fun e he => (c2 e he).imp id .inl⟩

theorem ConvH.switch_alive {c c' : ConvH} {h h' : Heap} {r} (a : h.Alive k) (hr : c.switch os h = (r, c', h')) :
    h'.Alive k ∧ ∀ e, r = .error e → Fails k os e := by
  unfold ConvH.switch at hr
  rcases hm : c.memory.fileComplete c.received h with ⟨(e | (_ | f)), h1⟩
  · obtain ⟨b1, b2⟩ := MemoryH.fileComplete_alive a hm
    rw [hm] at hr; cases hr
    exact ⟨b1, fun e he => .inl (b2 e (by simpa using he))⟩
  · obtain ⟨b1, b2⟩ := MemoryH.fileComplete_alive a hm
    rw [hm] at hr; cases hr
    exact ⟨b1, fun e he => .inl (.inl (by simpa using he.symm))⟩
  · obtain ⟨b1, b2⟩ := MemoryH.fileComplete_alive a hm
    rw [hm] at hr
    simp only at hr
    split at hr
    · cases hr; exact ⟨b1, fun e he => .inl (.inl (by simpa using he.symm))⟩
    · rename_i o ho
      by_cases hc : o.closed = true
      · simp only [FileObj.readAll, hc, if_true] at hr
        cases hr
        refine ⟨b1, fun e he => .inl (.inr ⟨?_, by simpa using he.symm⟩)⟩
        cases k with
        | false => rfl
        | true => rw [b1 rfl o (List.mem_of_getElem? ho)] at hc; cases hc
      rw [Bool.not_eq_true] at hc
      simp only [FileObj.readAll, hc, Bool.false_eq_true, if_false] at hr
      generalize hn : TempH.newFile os _ _ _ = z at hr
      obtain ⟨rn, tn, hn'⟩ := z
      obtain ⟨c1, c2⟩ := TempH.newFile_alive (b1.set _ (fun _ => by simp)) hn
      rcases rn with e | _
      · cases hr; exact ⟨c1, fun e he => c2 e (by simpa using he)⟩
      · simp only at hr
        rcases hv : tn.receive (o.data.drop o.pos) hn' with ⟨(e | x), h2⟩
        all_goals
          obtain ⟨d1, d2⟩ := TempH.receive_alive c1 hv
          rw [hv] at hr
          cases hr
          exact ⟨d1, fun e he => by first | (simp at he; done) | exact .inl (d2 e (by simpa using he))⟩

theorem Builtin.receive_alive {b b' : Builtin} {d : Bytes} {h h' : Heap} {r} (a : h.Alive k)
    (hr : b.receive os d h = (r, b', h')) : h'.Alive k ∧ ∀ e, r = .error e → Fails k os e := by
  cases b with
  | memory m =>
    simp only [Builtin.receive] at hr
    rcases hm : m.receive d h with ⟨r1, h1⟩
    rw [hm] at hr; cases hr
    obtain ⟨c1, c2⟩ := MemoryH.receive_alive a hm
    exact ⟨c1, fun e he => .inl (c2 e he)⟩
  | temp t =>
    simp only [Builtin.receive] at hr
    rcases hm : t.receive d h with ⟨r1, h1⟩
    rw [hm] at hr; cases hr
    obtain ⟨c1, c2⟩ := TempH.receive_alive a hm
    exact ⟨c1, fun e he => .inl (c2 e he)⟩
  | conv c =>
    simp only [Builtin.receive, ConvH.receive] at hr
    cases hl : c.fileMax with
    | none =>
      rw [hl] at hr; cases hr
      exact ⟨a, fun e he => .inl (.inl (by simpa using he.symm))⟩
    | some limit =>
      rw [hl] at hr
      simp only at hr
      generalize hw : (if c.switched = false ∧ (c.received : Int) + d.length > limit then c.switch os h
        else (.ok (), c, h) : Res (ConvH × Heap) Unit) = z at hr
      obtain ⟨r1, c1, h1⟩ := z
      have hz : h1.Alive k ∧ ∀ e, r1 = .error e → Fails k os e := by
        split at hw
        · exact ConvH.switch_alive a hw
        · cases hw; exact ⟨a, by simp [Bad]⟩
      rcases r1 with e | _
      · cases hr; exact ⟨hz.1, fun e he => hz.2 e (by simpa using he)⟩
      · simp only at hr
        generalize hv : (if c1.switched = true then c1.temp.receive d h1 else c1.memory.receive d h1) = y at hr
        obtain ⟨r2, h2⟩ := y
        have hy : h2.Alive k ∧ ∀ e, r2 = .error e → Bad k e := by
          split at hv
          · exact TempH.receive_alive hz.1 hv
          · exact MemoryH.receive_alive hz.1 hv
        rcases r2 with e | _
        · cases hr; exact ⟨hy.1, fun e he => .inl (hy.2 e (by simpa using he))⟩
        · cases hr; exact ⟨hy.1, by simp⟩

theorem Builtin.fileComplete_alive {b b' : Builtin} {sz : Nat} {h h' : Heap} {r} (a : h.Alive k)
    (hr : b.fileComplete sz h = (r, b', h')) : h'.Alive k ∧ ∀ e, r = .error e → Bad k e := by
  cases b with
  | memory m =>
    simp only [Builtin.fileComplete] at hr
    rcases hm : m.fileComplete sz h with ⟨r1, h1⟩
    rw [hm] at hr; cases hr
    exact MemoryH.fileComplete_alive a hm
  | temp t =>
    simp only [Builtin.fileComplete] at hr
    rcases hm : t.fileComplete sz h with ⟨r1, m1, h1⟩
    rw [hm] at hr; cases hr
    exact TempH.fileComplete_alive a hm
  | conv c =>
    simp only [Builtin.fileComplete, ConvH.fileComplete] at hr
    by_cases hs : c.switched = true
    · rw [if_pos hs] at hr
      rcases hm : c.temp.fileComplete sz h with ⟨r1, m1, h1⟩
      rw [hm] at hr; cases hr
      exact TempH.fileComplete_alive a hm
    · rw [if_neg hs] at hr
      rcases hm : c.memory.fileComplete sz h with ⟨r1, h1⟩
      rw [hm] at hr; cases hr
      exact MemoryH.fileComplete_alive a hm

/-- A call to a handler that exists. -/
theorem BAll.call {α : Type} {w w' : BWorld} (hw : BAll k n w) {i : Nat} (hi : i < n) {P : Exc → Prop}
    {f : Builtin → Heap → Res (Builtin × Heap) α} {r} (hf : ∀ b h r b' h', h.Alive k → f b h = (r, b', h') →
      h'.Alive k ∧ ∀ e, r = .error e → P e) (h : w.on i f = (r, w')) : BAll k n w' ∧ ∀ e, r = .error e → P e := by
  have hk : i < w.hs.length := by rw [hw.count]; exact hi
  have hb : w.hs[i]? = some w.hs[i] := by simp [hk]
  simp only [BWorld.on, hb] at h
  rcases hm : f w.hs[i] w.heap with ⟨r1, b1, h1⟩
  obtain ⟨c1, c2⟩ := hf _ _ _ _ _ hw.alive hm
  rw [hm] at h
  cases h
  exact ⟨⟨by simpa using hw.count, c1⟩, c2⟩

theorem newFiles_alive (hos : os.Plain) (a : NewFileArgs) : ∀ (is : List Nat) (_ : ∀ i ∈ is, i < n) (w : BWorld), BAll k n w →
    ∀ r w', newFiles (builtinOps ρ os n) a is w = (r, w') → (r = .ok () → BAll k n w') ∧ ∀ e, r = .error e → Fails k os e := by
  intro is
  induction is with
  | nil => intro _ w hw r w' h; cases h; exact ⟨fun _ => hw, by simp⟩
  | cons i is ih =>
    intro hlt w hw r w' h
    rw [newFiles] at h
    rcases hm : (builtinOps ρ os n).newFile i a w with ⟨(e | _), w1⟩
    all_goals
      obtain ⟨c1, c2⟩ := hw.call (hlt i (by simp)) (fun b h r b' h' ha hr => Builtin.newFile_alive (os := os) (args := a) ha hr) hm
      rw [hm] at h
    · have := c2 e rfl
      cases e <;> simp only [Prod.mk.injEq] at h <;> obtain ⟨rfl, rfl⟩ := h
      case stopFutureHandlers => exact ⟨fun _ => c1, by simp⟩
      all_goals
        refine ⟨by simp, fun x hx => ?_⟩
        simp only [Except.error.injEq] at hx
        subst hx
        exact this.resolve_left (by simp)
    · exact ih (fun i hi => hlt i (by simp [hi])) w1 c1 r w' h

theorem feedChunk_alive : ∀ (is : List Nat) (_ : ∀ i ∈ is, i < n) (d : Bytes) (cs : List Nat) (w : BWorld), BAll k n w →
    ∀ r cs' w', feedChunk (builtinOps ρ os n) is d cs w = (r, cs', w') →
      (r = .ok () → BAll k n w') ∧ ∀ e, r = .error e → Fails k os e := by
  intro is
  induction is with
  | nil => intro _ d cs w hw r cs' w' h; cases h; exact ⟨fun _ => hw, by simp⟩
  | cons i is ih =>
    intro hlt d cs w hw r cs' w' h
    rw [feedChunk] at h
    rcases hm : (builtinOps ρ os n).receive i d (cs.getD i 0) w with ⟨(e | (_ | x)), w1⟩
    all_goals
      obtain ⟨c1, c2⟩ := hw.call (hlt i (by simp)) (fun b h r b' h' ha hr => Builtin.receive_alive (os := os) (d := d) ha hr) hm
      rw [hm] at h
    · cases h; exact ⟨by simp, fun e he => c2 e (by simpa using he)⟩
    · cases h; exact ⟨fun _ => c1, by simp⟩
    · exact ih (fun i hi => hlt i (by simp [hi])) _ _ w1 c1 r cs' w' h

theorem completeLoop_alive (cs : List Nat) : ∀ (is : List Nat) (_ : ∀ i ∈ is, i < n) (w : BWorld), BAll k n w →
    ∀ r w', completeLoop (builtinOps ρ os n) cs is w = (r, w') → BAll k n w' ∧ ∀ e, r = .error e → Bad k e := by
  intro is
  induction is with
  | nil => intro _ w hw r w' h; cases h; exact ⟨hw, by simp⟩
  | cons i is ih =>
    intro hlt w hw r w' h
    rw [completeLoop] at h
    rcases hm : (builtinOps ρ os n).fileComplete i (cs.getD i 0) w with ⟨(e | (_ | x)), w1⟩
    all_goals
      obtain ⟨c1, c2⟩ := hw.call (hlt i (by simp)) (fun b h r b' h' ha hr => Builtin.fileComplete_alive (sz := cs.getD i 0) ha hr) hm
      rw [hm] at h
    · cases h; exact ⟨c1, fun e he => c2 e (by simpa using he)⟩
    · exact ih (fun i hi => hlt i (by simp [hi])) w1 c1 r w' h
    · simp only at h
      split at h
      · cases h; exact ⟨c1, by simp⟩
      · exact ih (fun i hi => hlt i (by simp [hi])) w1 c1 r w' h

theorem builtin_alive_phases (hos : os.Plain) : (builtinOps ρ os n).Phases (BAll k n) (BAll k n) (Fails k os) where
  idle := fun _ h => h
  newFiles := fun a w r w' hw h => newFiles_alive hos a _ (fun i hi => by simpa [builtinOps] using hi) w hw r w' h
  feed := fun d cs w r cs' w' hw h => feedChunk_alive _ (fun i hi => by simpa [builtinOps] using hi) d cs w hw r cs' w' h
  complete := fun cs w r w' hw h => by
    obtain ⟨h1, h2⟩ := completeLoop_alive cs _ (fun i hi => by simpa [builtinOps] using hi) w hw r w' h
    exact ⟨fun _ => h1, fun e he => .inl (h2 e he)⟩
  uploadComplete := fun w _ => by rw [uploadCompleteLoop_builtin]
  plain := fun e he => by
    rcases he with (rfl | ⟨-, rfl⟩) | he
    · simp
    · simp
    · exact ⟨(hos e he).1, (hos e he).2.2⟩

end

/-- The world in which the parts are parsed. -/
theorem rawInput_world {ρ : Type} (os : Os) (hs : List Builtin) (heap : Heap) (a : RawArgs) (input : LazyStream ρ) :
    rawInputLoop (builtinOps ρ os hs.length) a (List.range (builtinOps ρ os hs.length).count) input ⟨hs, heap⟩ =
      (.ok none, input, ⟨hs.map (Builtin.rawInput a), heap⟩) := by
  have := rawInputLoop_builtin (ρ := ρ) os hs.length a input heap hs []
  rw [show List.range (builtinOps ρ os hs.length).count = List.range' 0 hs.length by rw [List.range_eq_range']; rfl]
  simpa using this

/-- **Specification**: the handlers that may be before others in the list.  (A `MemoryFileUploadHandler` keeps the
files from the handlers after it exactly when the content length is at most `FILE_UPLOAD_MAX_MEMORY_SIZE`; a
`ConvenientFileUploadHandler` always does, until it switches to temporary files.) -/
def Spec.LetsThrough (S : Settings) (contentLength : Nat) : Builtin → Prop
  | .memory _ => S.fileMaxMemory < contentLength
  | .temp _ => True
  | .conv _ => False

/-- **C115**, the part that holds.  If only the last of the handlers of the package keeps files from the handlers after
it — in particular if there is only one handler — the handlers raise nothing but what the operating system raises when
a temporary file is made.  This holds for every body, every state of the handlers before the request, and every set of
open and closed files. -/
theorem C115_healthy_partial {ρ : Type} [Producer ρ] {L : Lawful ρ} (C : Codecs) (hst : ∀ b, C.Avoids (.stopUpload b))
    (S : Settings) (hS : 0 ≤ S.fileMaxMemory) (os : Os) (hos : os.Plain) (fuel64 : Nat) (m : MultiPart)
    (hc : 1 ≤ m.chunkSize) (hmem : ∀ k, S.dataMaxMemory = some k → 0 ≤ k) (hs : List Builtin) (heap : Heap)
    (hl : ∀ i b, hs[i]? = some b → i + 1 < hs.length → LetsThrough S m.contentLength b)
    (input : LazyStream ρ) (hi : SOK L input) {e : Exc} (hC : C.Avoids e) {s' w'}
    (h : m.parse C S (builtinOps ρ os hs.length) fuel64 input ⟨hs, heap⟩ = (.error e, s', w')) :
    (∃ ext, os.tempFile ext = .error e) ∨ ParserExc e ∨
      (e = .diverge ∧ ∃ D, D <:+ L.sc input ∧ SpinPart C fuel64 (cut (b!"--" ++ m.boundary) D)) := by
  refine parse_phase (builtin_phases (n := hs.length) hos) C hst S fuel64 m hc (builtin_leaves L os _) hmem input _ hi
    ⟨input, _, rawInput_world os hs heap _ input, ?_⟩ hC h
  · refine ⟨by simp, ?_, ?_⟩
    · intro b hb
      simp only [List.mem_map] at hb
      obtain ⟨x, _, rfl⟩ := hb
      cases x with
      | memory x => simp [Builtin.rawInput, Builtin.Told, MemoryH.rawInput]
      | temp x => simp [Builtin.rawInput, Builtin.Told]
      | conv x =>
        simp only [Builtin.rawInput, Builtin.Told, ConvH.rawInput]
        by_cases hx : x.switched = true
        · simp [hx]
        · simp [hx, MemoryH.rawInput, hS]
    · intro i b hb hn
      simp only [List.getElem?_map, Option.map_eq_some_iff] at hb
      obtain ⟨x, hx, rfl⟩ := hb
      have := hl i x hx hn
      cases x with
      | memory x =>
        simp only [LetsThrough] at this
        simp only [Builtin.rawInput, Builtin.Passes, MemoryH.rawInput, Option.some.injEq, decide_eq_false_iff_not]
        omega
      | temp x => trivial
      | conv x => exact this.elim


/-- **C115**, for every list of handlers.  When no file is closed at the start, the handlers of the package raise only
`AttributeError` and what the operating system raises; in particular nothing is ever written to or read from a closed
file (`ValueError`). -/
theorem C115_all_partial {ρ : Type} [Producer ρ] {L : Lawful ρ} (C : Codecs) (hst : ∀ b, C.Avoids (.stopUpload b))
    (S : Settings) (os : Os) (hos : os.Plain) (fuel64 : Nat) (m : MultiPart)
    (hc : 1 ≤ m.chunkSize) (hmem : ∀ k, S.dataMaxMemory = some k → 0 ≤ k) (hs : List Builtin) (heap : Heap)
    (ho : ∀ o ∈ heap, o.closed = false)
    (input : LazyStream ρ) (hi : SOK L input) {e : Exc} (hC : C.Avoids e) {s' w'}
    (h : m.parse C S (builtinOps ρ os hs.length) fuel64 input ⟨hs, heap⟩ = (.error e, s', w')) :
    e = .attributeError ∨ (∃ ext, os.tempFile ext = .error e) ∨ ParserExc e ∨
      (e = .diverge ∧ ∃ D, D <:+ L.sc input ∧ SpinPart C fuel64 (cut (b!"--" ++ m.boundary) D)) := by
  rcases parse_phase (builtin_alive_phases (n := hs.length) (k := true) hos) C hst S fuel64 m hc (builtin_leaves L os _)
    hmem input _ hi ⟨input, _, rawInput_world os hs heap _ input, by simp, fun _ => ho⟩ hC h with
    ((h | ⟨h, -⟩) | h) | h
  · exact .inl h
  · cases h
  · exact .inr (.inl h)
  · exact .inr (.inr h)

/-- No handler outside the list is ever called. -/
theorem builtin_no_index {ρ : Type} [Producer ρ] {L : Lawful ρ} (C : Codecs) (hst : ∀ b, C.Avoids (.stopUpload b))
    (S : Settings) (os : Os) (hos : os.Plain) (hx : ¬ os.Raises .indexError) (fuel64 : Nat) (m : MultiPart)
    (hc : 1 ≤ m.chunkSize) (hmem : ∀ k, S.dataMaxMemory = some k → 0 ≤ k) (hs : List Builtin) (heap : Heap)
    (input : LazyStream ρ) (hi : SOK L input) (hC : C.Avoids .indexError) {s' w'} :
    m.parse C S (builtinOps ρ os hs.length) fuel64 input ⟨hs, heap⟩ ≠ (.error .indexError, s', w') := by
  intro h
  rcases parse_phase (builtin_alive_phases (n := hs.length) (k := false) hos) C hst S fuel64 m hc (builtin_leaves L os _)
    hmem input _ hi ⟨input, _, rawInput_world os hs heap _ input, by simp, by simp [Heap.Alive]⟩ hC h with
    ((h | ⟨-, h⟩) | h) | h | ⟨h, -⟩
  · cases h
  · cases h
  · exact hx h
  · rcases h with h | h | h | h | h <;> cases h
  · cases h

/-! ### Cases -/

/-- A system without room for temporary files. -/
def fullOs : Os := { tempFile := fun _ => .error .osError }

example : fullOs.Plain ∧ goodOs.Plain := by
  constructor
  · rintro e ⟨x, hx⟩; cases hx; simp
  · rintro e ⟨x, hx⟩; cases hx

/-- **C115 is false of the code** for the two handlers that are usual in Django (here commented out in the settings), and for
a `ConvenientFileUploadHandler` (the default) before another one: an empty file is an
`AttributeError`, because `TemporaryFileUploadHandler.file_complete` is called though its `new_file` was not. -/
theorem C115_refuted :
    errorOf (run [.memory {}, .temp {}] 65536 (renderForm b!"B" [.file b!"up" b!"n.txt" b!"text/plain" []])) =
      some .attributeError ∧
    errorOf (run [.conv {}, .memory {}] 65536 (renderForm b!"B" [.file b!"up" b!"n.txt" b!"text/plain" []])) =
      some .attributeError := by decide +kernel

/-- The same file with one handler, and behind a handler that makes temporary files. -/
example : (∀ hs ∈ [[.memory {}], [.temp {}], [.conv {}], [.temp {}, .memory {}], [.temp {}, .temp {}, .conv {}]],
    errorOf (run hs 65536 (renderForm b!"B" [.file b!"up" b!"n.txt" b!"text/plain" [],
      .file b!"up" b!"n.txt" b!"text/plain" b!"x"])) = none) := by decide +kernel

example : (∀ i b, [Builtin.temp {}, .temp {}, .conv {}][i]? = some b → i + 1 < 3 → LetsThrough {} 5000 b) := by
  intro i b h hi
  match i, hi with
  | 0, _ => cases h; trivial
  | 1, _ => cases h; trivial

end Verif
