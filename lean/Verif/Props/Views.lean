import Verif.Model.Views
import Verif.Props.MVDict
/-!
# C91, C92: views of a dictionary, and pickling
-/

namespace Verif
open Mem Spec
variable {κ α : Type} [DecidableEq κ]

/-- What `self[key]` should be when the key's values are `xs`: the last of them, or an empty list (made for the
occasion, at an address not in use before) if there are none. -/
def Spec.LastOf (m m' : Mem κ α) (xs : List (Val α)) (v : Val α) : Prop :=
  (xs ≠ [] ∧ xs.getLast? = some v) ∨
  (xs = [] ∧ ∃ r, v = .list r ∧ m.lists.length ≤ r ∧ r < m'.lists.length ∧ m'.elems r = [])

theorem itemsLoop_works {i : Nat} : ∀ (ks : List κ) (m0 m : Mem κ α), m.WF → m0.lists.length ≤ m.lists.length →
    (∀ k ∈ ks, (m.abs i k).isSome) →
    ∃ l m', itemsLoop i ks m = (.ok l, m') ∧ l.map Prod.fst = ks ∧ m'.WF ∧ m'.dicts = m.dicts ∧
      m.lists.length ≤ m'.lists.length ∧ (∀ r, r < m.lists.length → m'.elems r = m.elems r) ∧
      ∀ p ∈ l, ∃ xs, m.abs i p.1 = some xs ∧ LastOf m0 m' xs p.2 := by
  intro ks
  induction ks with
  | nil => intro m0 m wf h0 _; exact ⟨[], m, rfl, rfl, wf, rfl, Nat.le_refl _, fun _ _ => rfl, by simp⟩
  | cons k ks ih =>
    intro m0 m wf h0 hk
    obtain ⟨xs, hxs⟩ := Option.isSome_iff_exists.1 (hk k (by simp))
    have hxs' := hxs
    unfold Mem.abs at hxs
    cases hg : (m.dict i).get? k with
    | none => rw [hg] at hxs; cases hxs
    | some r =>
      rw [hg] at hxs
      simp only [Option.map_some, Option.some.injEq] at hxs
      unfold itemsLoop getItem
      simp only [hg]
      cases hl : (m.elems r).getLast? with
      | some v =>
        obtain ⟨l, m', h1, h2, h3, h4, h5, h6, h7⟩ := ih m0 m wf h0 (fun k' h => hk k' (by simp [h]))
        refine ⟨(k, v) :: l, m', ?_, by simp [h2], h3, h4, h5, h6, ?_⟩
        · simp only [h1]
        · intro p hp
          rcases List.mem_cons.1 hp with rfl | hp
          · refine ⟨xs, hxs', .inl ⟨?_, hxs ▸ hl⟩⟩
            rintro rfl
            rw [hxs] at hl
            cases hl
          · exact h7 p hp
      | none =>
        have hw : (m.alloc []).2.WF := ((Touch.alloc (i := i) m []).kept wf).wf
        have ha : ∀ k', (m.alloc ([] : List (Val α))).2.abs i k' = m.abs i k' := fun k' => by rw [abs_alloc wf]
        have hll : (m.alloc ([] : List (Val α))).2.lists.length = m.lists.length + 1 := by simp [Mem.alloc]
        obtain ⟨l, m', h1, h2, h3, h4, h5, h6, h7⟩ := ih m0 (m.alloc []).2 hw (by omega)
          (fun k' h => by rw [ha]; exact hk k' (by simp [h]))
        refine ⟨(k, .list m.lists.length) :: l, m', ?_, by simp [h2], h3, h4, by omega, fun r hr => ?_, ?_⟩
        · rw [show m.alloc ([] : List (Val α)) = (m.lists.length, (m.alloc ([] : List (Val α))).2) from rfl]
          simp only [h1]
        · rw [h6 r (by omega), elems_alloc _ _ hr]
        · intro p hp
          rcases List.mem_cons.1 hp with rfl | hp
          · refine ⟨xs, hxs', .inr ⟨?_, m.lists.length, rfl, h0, by omega, ?_⟩⟩
            · rw [← hxs]; exact List.getLast?_eq_none_iff.1 hl
            · rw [h6 _ (by omega), elems_alloc_new]
          · obtain ⟨ys, h8, h9⟩ := h7 p hp
            exact ⟨ys, by rw [← ha]; exact h8, h9⟩

theorem mem_keys_iff (m : Mem κ α) (i : Nat) (k : κ) : k ∈ (m.dict i).keys ↔ (m.abs i k).isSome := by
  unfold Mem.abs
  generalize m.dict i = d
  induction d with
  | nil => simp [Dict.keys, Dict.get?]
  | cons p t ih =>
    obtain ⟨a, b⟩ := p
    simp only [Dict.keys, List.map_cons, List.mem_cons, Dict.get?]
    by_cases h : a = k
    · simp [h]
    · rw [if_neg h]
      rw [← ih]
      simp [Dict.keys, Ne.symm h]

/-- **C91**.  `items()` lists every key of the dictionary exactly once, with the value `self[key]` has: the last of
the key's list, or an empty list.  `values()` lists those values in the same order, and `dict()` is the dictionary of
these pairs.  No dictionary changes. -/
theorem C91_items (m : Mem κ α) (wf : m.WF) (i : Nat) :
    ∃ l m', items i m = (.ok l, m') ∧ values i m = (.ok (l.map Prod.snd), m') ∧
      (l.map Prod.fst).Nodup ∧ (∀ k, k ∈ l.map Prod.fst ↔ (m.abs i k).isSome) ∧
      (∀ p ∈ l, ∃ xs, m.abs i p.1 = some xs ∧ LastOf m m' xs p.2) ∧
      (∃ d, asDict i m = (.ok d, m') ∧ ∀ k v, d.get? k = some v ↔ (k, v) ∈ l) ∧
      ∀ j, Answers m' j (m.abs j) := by
  obtain ⟨l, m', h1, h2, h3, h4, h5, h6, h7⟩ := itemsLoop_works (i := i) (m.dict i).keys m m wf (Nat.le_refl _)
    (fun k hk => (mem_keys_iff m i k).1 hk)
  have hit : items i m = (.ok l, m') := h1
  have hnd : (l.map Prod.fst).Nodup := by rw [h2]; exact wf.nodup i
  refine ⟨l, m', hit, by unfold values; simp only [hit], hnd, fun k => by rw [h2]; exact mem_keys_iff m i k, h7,
    ⟨l.foldl (fun d p => d.set p.1 p.2) [], by unfold asDict; simp only [hit], ?_⟩, fun j => ?_⟩
  · have key : ∀ (l : List (κ × Val α)) (d : Dict κ (Val α)), (l.map Prod.fst).Nodup → ∀ k v,
        (l.foldl (fun d p => d.set p.1 p.2) d).get? k = some v ↔
          ((k, v) ∈ l ∨ (k ∉ l.map Prod.fst ∧ d.get? k = some v)) := by
      intro l
      induction l with
      | nil => intro d _ k v; simp
      | cons p t ih =>
        intro d hn k v
        obtain ⟨a, b⟩ := p
        simp only [List.map_cons, List.nodup_cons] at hn
        simp only [List.foldl_cons]
        rw [ih _ hn.2, Dict.get?_set]
        by_cases ha : a = k
        · subst ha
          constructor
          · rintro (h | ⟨_, h⟩)
            · exact .inl (List.mem_cons_of_mem _ h)
            · simp only [if_true, Option.some.injEq] at h
              subst h; simp
          · rintro (h | ⟨h, _⟩)
            · rcases List.mem_cons.1 h with h | h
              · cases h
                exact .inr ⟨hn.1, by simp⟩
              · exact .inl h
            · simp at h
        · rw [if_neg ha]
          simp only [List.mem_cons, List.map_cons, Prod.mk.injEq, not_or, Ne.symm ha, false_and, false_or,
            not_false_eq_true, true_and]
    intro k v
    rw [key l [] hnd]
    simp [Dict.get?]
  · have : m'.abs j = m.abs j := by
      have hd : m'.dict j = m.dict j := by simp only [Mem.dict, Mem.obj, h4]
      exact abs_congr hd fun k r hr => h6 r (wf.valid j k r hr)
    rw [← this]
    exact answers_abs m' j

/-- A dictionary with two keys, one of them without values. -/
example : (items 0 (Mem.put (Mem.put sampleMem 0 b!"a" [.atom b!"x", .atom b!"y"]) 0 b!"b" [])).1.toOption =
    some [(b!"a", .atom b!"y"), (b!"b", .list 3)] := by decide +kernel

/-! ### C92 -/

/-- **C92 is false of the code**: `__getstate__` raises `TypeError` for every dictionary, so none can be pickled. -/
theorem C92_refuted (m : Mem κ α) (i : Nat) : ∃ m', getState i m = (.error .typeError, m') := ⟨_, rfl⟩

theorem setList_plain {C : Conv κ α} {m : Mem κ α} {i : Nat} (hc : (m.obj i).cls = .plain) (k : κ) (v : Val α) :
    setList C i k v m = (.ok (), m.put i k (asList m.elems v)) := by
  unfold setList setListBase
  simp only [hc]
  cases v <;> rfl

theorem setAll_works {C : Conv κ α} {i : Nat} : ∀ (data : List (κ × Val α)) (m0 m : Mem κ α), m.WF →
    i < m.dicts.length → (m.obj i).cls = .plain → (data.map Prod.fst).Nodup → m0.lists.length ≤ m.lists.length →
    (∀ r, r < m0.lists.length → m.elems r = m0.elems r) →
    (∀ p ∈ data, ∀ r, p.2 = .list r → r < m0.lists.length) →
    ∃ m', setAll C i data m = (.ok (), m') ∧ m'.WF ∧
      ∀ k, m'.abs i k = match data.find? (·.1 = k) with
        | some p => some (asList m0.elems p.2)
        | none => m.abs i k := by
  intro data
  induction data with
  | nil => intro m0 m wf _ _ _ _ _ _; exact ⟨m, rfl, wf, fun k => rfl⟩
  | cons p t ih =>
    intro m0 m wf hi hc hn h0 he hv
    obtain ⟨a, v⟩ := p
    simp only [List.map_cons, List.nodup_cons] at hn
    unfold setAll
    rw [setList_plain hc]
    have hw : (m.put i a (asList m.elems v)).WF := ((Touch.put (i := i) m a (asList m.elems v)).kept wf).wf
    obtain ⟨m', h1, h2, h3⟩ := ih m0 (m.put i a (asList m.elems v)) hw
      (by simp only [Mem.put, Mem.alloc, setDict, List.length_set]; exact hi)
      (by rw [Mem.put]; simp only [obj_setDict, obj_alloc]; simp_all)
      hn.2 (by simp only [Mem.put, Mem.alloc, setDict, List.length_append]; omega)
      (fun r hr => by rw [elems_put _ _ _ _ (by omega)]; exact he r hr)
      (fun p hp => hv p (by simp [hp]))
    refine ⟨m', h1, h2, fun k => ?_⟩
    rw [h3 k]
    by_cases ha : a = k
    · subst ha
      have hf : t.find? (fun q => decide (q.1 = a)) = none := by
        rw [List.find?_eq_none]
        intro q hq
        simp only [decide_eq_true_eq]
        rintro rfl
        exact hn.1 (List.mem_map_of_mem hq)
      simp only [hf, List.find?_cons, decide_true]
      rw [abs_put wf hi]
      simp only [AMap.upd, if_true, Option.some.injEq]
      cases v with
      | none => rfl
      | atom => rfl
      | list r => exact he r (hv (a, .list r) List.mem_cons_self r rfl)
    · simp only [List.find?_cons, ha, decide_false]
      rw [abs_put wf hi]
      simp only [AMap.upd, Ne.symm ha, if_false]

/-- **C92, the part that holds**: `__setstate__` gives a dictionary the lists that the state has under `_data`, for
every key there, and leaves the other keys as they are.  Missing: getting the state (`C92_refuted`). -/
theorem C92_partial (C : Conv κ α) (m : Mem κ α) (wf : m.WF) (i : Nat) (hi : i < m.dicts.length)
    (hc : (m.obj i).cls = .plain) (data : List (κ × Val α)) (hn : (data.map Prod.fst).Nodup)
    (hv : ∀ p ∈ data, ∀ r, p.2 = .list r → r < m.lists.length) :
    ∃ m', setState C i data none m = (.ok (), m') ∧ m'.WF ∧
      Answers m' i (fun k => match data.find? (·.1 = k) with
        | some p => some (asList m.elems p.2)
        | none => m.abs i k) := by
  obtain ⟨m', h1, h2, h3⟩ := setAll_works (C := C) data m m wf hi hc hn (Nat.le_refl _) (fun _ _ => rfl) hv
  refine ⟨m', by unfold setState; simp only [h1], h2, ?_⟩
  rw [← funext h3]
  exact answers_abs m' i

/-- **C92** `__setstate__` with a value for `_mutable`: the flag is that value, and the lists are those without it. -/
theorem C92_flag (C : Conv κ α) (m m' : Mem κ α) (i : Nat) (data : List (κ × Val α)) (b : Bool)
    (h : setState C i data (some b) m = (.ok (), m')) (hi : i < m'.dicts.length) :
    (m'.obj i).mutable = b ∧
      ∃ m1, setState C i data none m = (.ok (), m1) ∧ m'.lists = m1.lists ∧ ∀ j k, m'.abs j k = m1.abs j k := by
  unfold setState at h ⊢
  cases hs : setAll C i data m with
  | mk x m1 =>
    rw [hs] at h
    cases x with
    | error e => cases h
    | ok u =>
      simp only [Prod.mk.injEq, true_and] at h
      subst h
      rw [List.length_set] at hi
      refine ⟨by simp [Mem.obj, hi], m1, rfl, rfl, fun j k => ?_⟩
      have hd : (({ m1 with dicts := m1.dicts.set i { m1.obj i with mutable := b } } : Mem κ α).dict j) = m1.dict j := by
        by_cases hj : i = j
        · subst hj; simp [Mem.dict, Mem.obj, hi]
        · simp [Mem.dict, Mem.obj, hj]
      unfold Mem.abs
      rw [hd]
      rfl

/-- An immutable dictionary gets its flag back. -/
example : ((({ sampleMem with dicts := sampleMem.dicts.set 0 { (sampleMem.obj 0) with cls := .immutable, mutable := true } } :
    Mem Bytes Bytes).setState idConv 0 [(b!"name", .list 0)] (some false)).2.obj 0).mutable = false := by decide +kernel

example : ∃ m', setState idConv 0 [(b!"name", .list 0)] none sampleMem = (.ok (), m') ∧ m'.WF ∧
    (getItem 0 b!"name" m').1.toOption = some (.atom b!"Simon") := by
  obtain ⟨m', h1, h2, h3⟩ := C92_partial idConv sampleMem sampleMem_wf 0 (by decide) rfl [(b!"name", .list 0)] (by simp)
    (by intro p hp r hr; simp only [List.mem_singleton] at hp; subst hp; cases hr; decide)
  exact ⟨m', h1, h2, by have := h3.getitem b!"name"; rw [this]; rfl⟩

end Verif
