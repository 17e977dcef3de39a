import Verif.Props.QueryMap
/-!
# An `ImmutableMultiValueDict` that has been made mutable (C131)
-/

namespace Verif
open Spec Mem
variable {κ α : Type} [DecidableEq κ]

/-- The dictionary `i` is an `ImmutableMultiValueDict` with `_mutable` set. -/
structure OpenH (m : Mem κ α) (i : Nat) : Prop where
  wf : m.WF
  exists' : i < m.dicts.length
  cls : (m.obj i).cls = .immutable
  mutable : (m.obj i).mutable = true

/-- The methods that work: `setlist`, `setlistdefault`, `del`, `pop` and `clear`. -/
def Keeping : Call κ α → Prop
  | .setlist _ _ | .setlistdefault _ _ | .del _ | .pop _ _ | .clear => True
  | _ => False

theorem OpenH.assert {m : Mem κ α} {i : Nat} (h : OpenH m i) : m.assertMutable i = .ok () := by
  unfold assertMutable; simp [h.cls, h.mutable]

theorem OpenH.kept {m m' : Mem κ α} {i j : Nat} (h : OpenH m i) (k : Kept j m m') : OpenH m' i :=
  ⟨k.wf, by rw [k.dicts]; exact h.exists', by rw [k.cls]; exact h.cls, by rw [k.mutbl]; exact h.mutable⟩

theorem OpenH.setList {C : Conv κ α} {m : Mem κ α} {i : Nat} (h : OpenH m i) (k : κ) (p : Val α) :
    (setList C i k p m).1 = .ok () ∧ (setList C i k p m).2.abs i = (m.abs i).upd k (some (asList m.elems p)) := by
  unfold Mem.setList
  simp only [h.cls, h.assert]
  refine ⟨trivial, ?_⟩
  cases p <;> simp only [setListBase, abs_put h.wf h.exists', asList]

theorem OpenH.ensureList {C : Conv κ α} {m : Mem κ α} {i : Nat} (h : OpenH m i) (k : κ) (p : Val α) :
    (ensureList C i k p m).1 = .ok () ∧
    (ensureList C i k p m).2.abs i = (if (m.abs i k).isSome then m.abs i else (m.abs i).upd k (some (asList m.elems p))) := by
  unfold Mem.ensureList
  by_cases hc : m.contains i k
  · rw [if_pos hc, if_pos (by rwa [contains_iff] at hc)]; exact ⟨rfl, rfl⟩
  · rw [if_neg hc, if_neg (by rwa [contains_iff] at hc)]
    cases p with
    | none =>
      have t : Touch i m (m.alloc []).2 := .alloc _ _
      have := (h.kept (t.kept h.wf)).setList (C := C) k (.list (m.alloc []).1)
      refine ⟨this.1, ?_⟩
      simp only
      rw [this.2, abs_alloc h.wf]
      have he : (m.alloc []).2.elems (m.alloc []).1 = [] := elems_alloc_new m []
      simp only [asList, he]
    | list r => exact h.setList k _
    | atom a => exact h.setList k _

theorem OpenH.setListDefault {C : Conv κ α} {m : Mem κ α} {i : Nat} (h : OpenH m i) (k : κ) (p : Val α) :
    (setListDefault C i k p m).1 = .ok .none ∧
    (setListDefault C i k p m).2.abs i =
      (if (m.abs i k).isSome then m.abs i else (m.abs i).upd k (some (asList m.elems p))) := by
  have he := h.ensureList (C := C) k p
  have ht : Touch i m (Mem.ensureList C i k p m).2 := by
    unfold Mem.ensureList
    split
    · exact .refl _
    · split
      · exact .trans (.alloc _ _) (setList_touch ..)
      · exact setList_touch ..
  unfold Mem.setListDefault
  rw [h.assert]
  simp only
  generalize Mem.ensureList C i k p m = z at *
  obtain ⟨r, m1⟩ := z
  simp only at he ht
  rw [he.1]
  have o1 := h.kept (ht.kept h.wf)
  simp only [getListLive]
  cases hg : (m1.dict i).get? k with
  | some r => simp [o1.cls, he.2]
  | none =>
    have hc : ((m1.alloc []).2.obj i).cls = .immutable := by rw [obj_alloc]; exact o1.cls
    have := abs_alloc o1.wf [] i
    simp only [Mem.alloc] at *
    simp [hc, this, he.2]

theorem OpenH.call {C : Conv κ α} {m : Mem κ α} {i : Nat} (h : OpenH m i) (c : Call κ α) (hk : Keeping c) :
    match c.effect m.elems m.abs (m.abs i) with
    | .ok A => (Mem.call C i c m).1 = .ok () ∧ (Mem.call C i c m).2.abs i = A
    | .error e => (Mem.call C i c m).1 = .error e ∧ (Mem.call C i c m).2.abs i = m.abs i := by
  cases c with
  | set | setdefault | append | update => cases hk
  | setlist k p => exact h.setList k p
  | setlistdefault k p =>
    have := h.setListDefault (C := C) k p
    simp only [Call.effect, Mem.call]
    generalize Mem.setListDefault C i k p m = z at *
    obtain ⟨r, m1⟩ := z
    simp only at this
    rw [this.1]
    exact ⟨rfl, this.2⟩
  | del k =>
    simp only [Call.effect, Mem.call, delItem, h.assert, contains_iff]
    by_cases hs : (m.abs i k).isSome
    · rw [if_pos hs, if_pos hs]
      exact ⟨rfl, abs_erase h.exists' k⟩
    · rw [if_neg hs, if_neg hs]
      exact ⟨rfl, rfl⟩
  | pop k d =>
    simp only [Call.effect, Mem.call, Mem.pop, h.cls, if_neg (by simp : ¬ DCls.immutable = DCls.query)]
    cases hg : (m.dict i).get? k with
    | some r =>
      have hs : (m.abs i k).isSome := by unfold Mem.abs; rw [hg]; rfl
      rw [if_pos hs]
      exact ⟨rfl, abs_erase h.exists' k⟩
    | none =>
      have hs : ¬ (m.abs i k).isSome := by unfold Mem.abs; rw [hg]; simp
      rw [if_neg hs]
      cases d with
      | none => exact ⟨rfl, rfl⟩
      | some v => exact ⟨rfl, rfl⟩
  | clear =>
    simp only [Call.effect, Mem.call, Mem.clear, h.cls, if_neg (by simp : ¬ DCls.immutable = DCls.query)]
    exact ⟨trivial, abs_clear h.exists'⟩

/-- **C131**, the part that holds (missing: `d[k] = v`, `setdefault`, `appendlist` and `update`, see below).  In any
sequence of `setlist`, `setlistdefault`, `del`, `pop` and `clear` an `ImmutableMultiValueDict` that has been made
mutable answers as a `MultiValueDict` would. -/
theorem C131_map_partial (C : Conv κ α) (i : Nat) (m : Mem κ α) (h : OpenH m i) (cs : List (Call κ α))
    (hk : ∀ c ∈ cs, Keeping c) :
    Answers (runCalls C i cs m) i (specCalls C i cs m (m.abs i)) ∧
    (∀ c, Keeping c → (call C i c (runCalls C i cs m)).1 =
      (c.effect (runCalls C i cs m).elems (runCalls C i cs m).abs (specCalls C i cs m (m.abs i))).map fun _ => ()) ∧
    (∀ j, j ≠ i → Answers (runCalls C i cs m) j (m.abs j)) := by
  have go : OpenH (runCalls C i cs m) i ∧ (∀ j, j ≠ i → (runCalls C i cs m).abs j = m.abs j) ∧
      (runCalls C i cs m).abs i = specCalls C i cs m (m.abs i) := by
    induction cs generalizing m with
    | nil => exact ⟨h, fun _ _ => rfl, rfl⟩
    | cons c cs ih =>
      have kp := (call_touch C i c m h.wf).kept h.wf
      obtain ⟨h1, h2, h3⟩ := ih (call C i c m).2 (h.kept kp) (fun c hc => hk c (by simp [hc]))
      refine ⟨h1, fun j hj => (h2 j hj).trans (kp.abs j hj), ?_⟩
      unfold runCalls specCalls
      rw [h3]
      congr 1
      have := h.call (C := C) c (hk c (by simp))
      split at this
      · rename_i he; rw [he]; exact this.2
      · rename_i he; rw [he]; exact this.2
  obtain ⟨h1, h2, h3⟩ := go
  refine ⟨h3 ▸ answers_abs _ _, fun c hc => ?_, fun j hj => (h2 j hj) ▸ answers_abs _ _⟩
  have := h1.call (C := C) c hc
  rw [h3] at this
  split at this
  · rename_i he; rw [he]; exact this.1
  · rename_i he; rw [he]; exact this.1

/-- **C131 is false** of `d[k] = v`: the value is wrapped in a list twice, so that `d[k]` is then `[v]` and not `v`. -/
theorem C131_set_refuted (C : Conv κ α) (m : Mem κ α) (i : Nat) (h : OpenH m i) (k : κ) (v : Val α) :
    ∃ r m', setItem C i k v m = (.ok (), m') ∧ getItem i k m' = (.ok (.list r), m') ∧ m'.elems r = [v] ∧
      m'.abs i = (m.abs i).upd k (some [.list r]) := by
  have t : Touch i m (m.alloc [v]).2 := .alloc _ _
  have o := h.kept (t.kept h.wf)
  have hr : m.lists.length < (m.alloc [v]).2.lists.length := by simp [Mem.alloc]
  refine ⟨m.lists.length, (m.alloc [v]).2.put i k [.list m.lists.length], ?_, ?_, ?_, ?_⟩
  · simp only [setItem, h.cls, h.assert, Mem.alloc]
  · have hg : (((m.alloc [v]).2.put i k [.list m.lists.length]).dict i).get? k = some (m.alloc [v]).2.lists.length := by
      rw [dict_put, if_pos ⟨rfl, o.exists'⟩, Dict.get?_set, if_pos rfl]
    simp only [getItem, hg, elems_put_new, List.getLast?_singleton]
  · rw [elems_put _ _ _ _ hr]; exact elems_alloc_new m [v]
  · rw [abs_put o.wf o.exists', abs_alloc h.wf]

/-- **C131 is false** of `setdefault`: it returns `None`, and stores the value wrapped twice. -/
theorem C131_setdefault_refuted (C : Conv κ α) (m : Mem κ α) (i : Nat) (h : OpenH m i) (k : κ) (v : Val α) :
    (setDefault C i k v m).1 = .ok .none ∧
    (m.abs i k = none → ∃ r, (setDefault C i k v m).2.elems r = [v] ∧
      (setDefault C i k v m).2.abs i = (m.abs i).upd k (some [.list r])) ∧
    ((m.abs i k).isSome → (setDefault C i k v m).2.abs i = m.abs i) := by
  obtain ⟨r, m', h1, h2, h3, h4⟩ := C131_set_refuted C m i h k v
  have hs : setDefault C i k v m = setDefaultBase C i k v m := by
    unfold setDefault
    rw [h.assert]
    simp only [h.cls, if_neg (by simp : ¬ DCls.immutable = DCls.query)]
  rw [hs]
  unfold setDefaultBase
  rw [contains_iff]
  by_cases hc : (m.abs i k).isSome
  · rw [if_pos hc]
    have hg : ∃ x, getItem i k m = (.ok x, (getItem i k m).2) := by
      unfold Mem.abs at hc
      unfold getItem
      cases hd : (m.dict i).get? k with
      | none => rw [hd] at hc; simp at hc
      | some r => simp only; cases (m.elems r).getLast? <;> exact ⟨_, rfl⟩
    obtain ⟨x, hx⟩ := hg
    have ha := ((getItem_touch i k m).kept h.wf)
    have hab : (getItem i k m).2.abs i = m.abs i := by
      unfold getItem
      split
      · rfl
      · split
        · rfl
        · exact abs_alloc h.wf _ _
    dsimp only
    generalize getItem i k m = z at *
    obtain ⟨y, m2⟩ := z
    simp only at ha hab hx
    cases hx
    simp only [ha.cls, h.cls, if_true]
    refine ⟨trivial, fun hn => ?_, fun _ => hab⟩
    rw [hn] at hc; simp at hc
  · rw [if_neg hc, h1]
    have t := ((setItem_touch C i k v m).kept h.wf)
    rw [h1] at t
    simp only at t
    simp only [h2, t.cls, h.cls, if_true]
    exact ⟨trivial, fun _ => ⟨r, h3, h4⟩, fun hn => absurd hn hc⟩

/-- **C131 is false** of `appendlist`: it always raises `AttributeError` (`None` has no `append`), after storing an
empty list for a key that was absent. -/
theorem C131_append_refuted (C : Conv κ α) (m : Mem κ α) (i : Nat) (h : OpenH m i) (k : κ) (v : Val α) :
    (appendList C i k v m).1 = .error .attributeError ∧
    (appendList C i k v m).2.abs i = (if (m.abs i k).isSome then m.abs i else (m.abs i).upd k (some [])) := by
  have := h.setListDefault (C := C) k .none
  unfold appendList
  rw [h.assert]
  simp only [h.cls, if_neg (by simp : ¬ DCls.immutable = DCls.query)]
  unfold appendBase
  generalize Mem.setListDefault C i k .none m = z at *
  obtain ⟨r, m1⟩ := z
  simp only at this
  rw [this.1]
  exact ⟨rfl, this.2⟩

/-- **C131 is false** of `update`: whatever it is given, nothing included, it raises `TypeError` and changes nothing. -/
theorem C131_update_refuted (C : Conv κ α) (m : Mem κ α) (i : Nat) (h : OpenH m i) (arg : UpdArg κ α)
    (kw : List (κ × Val α)) : update C i arg kw m = (.error .typeError, m) := by
  unfold update
  rw [if_pos h.cls, h.assert]

theorem immOpen_open : OpenH immOpen 0 := ⟨immOpen_wf, by decide, rfl, rfl⟩

example :
    let m := runCalls idConv 0 [.setlist b!"b" (.list 0), .setlistdefault b!"c" .none, .del b!"a"] immOpen
    m.abs 0 b!"a" = none ∧ m.abs 0 b!"b" = some [.atom b!"1", .atom b!"2"] ∧ m.abs 0 b!"c" = some [] ∧
    (appendList idConv 0 b!"x" (.atom b!"1") m).2.abs 0 b!"x" = some [] ∧
    (setItem idConv 0 b!"x" (.atom b!"1") m).2.abs 0 b!"x" = some [.list 4] := by
  decide +kernel

end Verif
