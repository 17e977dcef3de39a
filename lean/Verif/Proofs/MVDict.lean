import Verif.Spec.MVDict
/-!
# Dictionaries in memory: what each primitive step changes
-/

namespace Verif

namespace Dict
variable {α β : Type} [DecidableEq α]

theorem keys_set (d : Dict α β) (k : α) (v : β) :
    (d.set k v).keys = if k ∈ d.keys then d.keys else d.keys ++ [k] := by
  induction d with
  | nil => simp [set, keys]
  | cons p t ih =>
    obtain ⟨a, b⟩ := p
    unfold keys at *
    unfold set
    by_cases h : a = k
    · subst h; simp
    · simp only [h, if_false, List.map_cons, ih, List.mem_cons, Ne.symm h, false_or]
      split <;> rfl

theorem keys_set_nodup {d : Dict α β} (h : d.keys.Nodup) (k : α) (v : β) : (d.set k v).keys.Nodup := by
  rw [keys_set]
  split
  · exact h
  · rename_i hk
    exact List.nodup_append.2 ⟨h, by simp, by rintro a ha b hb rfl; simp at hb; subst hb; exact hk ha⟩

theorem keys_erase_nodup {d : Dict α β} (h : d.keys.Nodup) (k : α) : (d.erase k).keys.Nodup :=
  h.sublist (List.filter_sublist.map _)

theorem get?_of_mem {d : Dict α β} (h : d.keys.Nodup) {k : α} {v : β} (hm : (k, v) ∈ d) : d.get? k = some v := by
  induction d with
  | nil => simp at hm
  | cons p t ih =>
    obtain ⟨a, b⟩ := p
    simp only [keys, List.map_cons, List.nodup_cons] at h
    unfold get?
    rcases List.mem_cons.1 hm with h1 | h1
    · cases h1; simp
    · have : a ≠ k := by rintro rfl; exact h.1 (List.mem_map.2 ⟨_, h1, rfl⟩)
      rw [if_neg this]; exact ih h.2 h1

theorem mem_of_get? {d : Dict α β} {k : α} {v : β} (h : d.get? k = some v) : (k, v) ∈ d := by
  induction d with
  | nil => cases h
  | cons p t ih =>
    obtain ⟨a, b⟩ := p
    unfold get? at h
    split at h
    · rename_i ha; cases h; simp [ha]
    · simp [ih h]

theorem get?_isSome (d : Dict α β) (k : α) : (d.get? k).isSome ↔ k ∈ d.keys := by
  induction d with
  | nil => simp [get?, keys]
  | cons p t ih =>
    obtain ⟨a, b⟩ := p
    unfold keys at *
    unfold get?
    by_cases h : a = k
    · simp [h]
    · rw [if_neg h, ih]; simp [Ne.symm h]

end Dict

namespace Mem
variable {κ α : Type} [DecidableEq κ]

/-- Keys are distinct, addresses are valid, no list is held twice. -/
structure WF (m : Mem κ α) : Prop where
  nodup : ∀ i, (m.dict i).keys.Nodup
  valid : ∀ i k r, (m.dict i).get? k = some r → r < m.lists.length
  inj : ∀ i k i' k' r, (m.dict i).get? k = some r → (m.dict i').get? k' = some r → i = i' ∧ k = k'

theorem dict_setDict (m : Mem κ α) (i : Nat) (d : Dict κ Nat) (j : Nat) :
    (m.setDict i d).dict j = if i = j ∧ i < m.dicts.length then d else m.dict j := by
  unfold setDict dict obj
  by_cases h : i = j
  · subst h
    by_cases h2 : i < m.dicts.length
    · simp [h2]
    · simp [h2]
  · simp [h]

theorem obj_setDict (m : Mem κ α) (i : Nat) (d : Dict κ Nat) (j : Nat) :
    ((m.setDict i d).obj j).cls = (m.obj j).cls ∧ ((m.setDict i d).obj j).mutable = (m.obj j).mutable := by
  unfold setDict obj
  by_cases h : i = j
  · subst h
    by_cases h2 : i < m.dicts.length
    · simp [h2]
    · simp [h2]
  · simp [h]

theorem elems_alloc (m : Mem κ α) (xs : List (Val α)) {r : Nat} (h : r < m.lists.length) :
    (m.alloc xs).2.elems r = m.elems r := by
  simp [alloc, elems, List.getElem?_append_left h]

theorem elems_alloc_new (m : Mem κ α) (xs : List (Val α)) :
    (m.alloc xs).2.elems m.lists.length = xs := by
  simp [alloc, elems]

theorem elems_write (m : Mem κ α) (r : Nat) (xs : List (Val α)) (r' : Nat) :
    (m.write r xs).elems r' = if r = r' ∧ r < m.lists.length then xs else m.elems r' := by
  unfold write elems
  by_cases h : r = r'
  · subst h
    by_cases h2 : r < m.lists.length
    · simp [h2]
    · simp [h2]
  · simp [h]

@[simp] theorem dict_alloc (m : Mem κ α) (xs : List (Val α)) (i : Nat) : (m.alloc xs).2.dict i = m.dict i := rfl
@[simp] theorem obj_alloc (m : Mem κ α) (xs : List (Val α)) (i : Nat) : (m.alloc xs).2.obj i = m.obj i := rfl
@[simp] theorem dict_write (m : Mem κ α) (r : Nat) (xs : List (Val α)) (i : Nat) : (m.write r xs).dict i = m.dict i := rfl
@[simp] theorem obj_write (m : Mem κ α) (r : Nat) (xs : List (Val α)) (i : Nat) : (m.write r xs).obj i = m.obj i := rfl
@[simp] theorem elems_setDict (m : Mem κ α) (i : Nat) (d : Dict κ Nat) (r : Nat) : (m.setDict i d).elems r = m.elems r := rfl

/-- The steps an operation on the dictionary `i` is made of. -/
inductive Touch (i : Nat) : Mem κ α → Mem κ α → Prop where
  | refl (m) : Touch i m m
  | alloc (m xs) : Touch i m (m.alloc xs).2
  | write (m k r xs) (h : (m.dict i).get? k = some r) : Touch i m (m.write r xs)
  | writeFree (m r xs) (h : ∀ j k, (m.dict j).get? k ≠ some r) : Touch i m (m.write r xs)
  | put (m k xs) : Touch i m (m.put i k xs)
  | erase (m k) : Touch i m (m.setDict i ((m.dict i).erase k))
  | clear (m) : Touch i m (m.setDict i [])
  | trans {m1 m2 m3} (h1 : Touch i m1 m2) (h2 : Touch i m2 m3) : Touch i m1 m3

/-- What `Touch` keeps. -/
structure Kept (i : Nat) (m m' : Mem κ α) : Prop where
  wf : m'.WF
  abs : ∀ j, j ≠ i → m'.abs j = m.abs j
  dict : ∀ j, j ≠ i → m'.dict j = m.dict j
  lists : m.lists.length ≤ m'.lists.length
  dicts : m'.dicts.length = m.dicts.length
  cls : ∀ j, (m'.obj j).cls = (m.obj j).cls
  mutbl : ∀ j, (m'.obj j).mutable = (m.obj j).mutable
  /-- Lists that were in no dictionary stay out of all. -/
  free : ∀ r, r < m.lists.length → (∀ j k, (m.dict j).get? k ≠ some r) → ∀ j k, (m'.dict j).get? k ≠ some r

theorem dict_put (m : Mem κ α) (i : Nat) (k : κ) (xs : List (Val α)) (j : Nat) :
    (m.put i k xs).dict j = if i = j ∧ i < m.dicts.length then (m.dict i).set k m.lists.length else m.dict j := by
  unfold put
  exact dict_setDict _ _ _ _

theorem elems_put (m : Mem κ α) (i : Nat) (k : κ) (xs : List (Val α)) {r : Nat} (h : r < m.lists.length) :
    (m.put i k xs).elems r = m.elems r := by
  unfold put; exact elems_alloc m xs h

theorem elems_put_new (m : Mem κ α) (i : Nat) (k : κ) (xs : List (Val α)) :
    (m.put i k xs).elems m.lists.length = xs := by
  unfold put; exact elems_alloc_new m xs

theorem abs_congr {m m' : Mem κ α} {i : Nat} (hd : m'.dict i = m.dict i)
    (he : ∀ k r, (m.dict i).get? k = some r → m'.elems r = m.elems r) : m'.abs i = m.abs i := by
  funext k
  unfold abs
  rw [hd]
  cases h : (m.dict i).get? k with
  | none => rfl
  | some r => simp [he k r h]

theorem Touch.kept {i : Nat} {m m' : Mem κ α} (h : Touch i m m') : m.WF → Kept i m m' := by
  induction h with
  | refl m => exact fun w => ⟨w, fun _ _ => rfl, fun _ _ => rfl, Nat.le_refl _, rfl, fun _ => rfl, fun _ => rfl, fun _ _ h => h⟩
  | alloc m xs =>
    intro w
    refine ⟨⟨w.nodup, fun i k r hr => ?_, w.inj⟩, fun j _ => ?_, fun _ _ => rfl, ?_, rfl, fun _ => rfl, fun _ => rfl, fun _ _ h => h⟩
    · have := w.valid i k r hr; simp [Mem.alloc]; omega
    · exact abs_congr rfl fun k r hr => elems_alloc m xs (w.valid j k r hr)
    · simp [Mem.alloc]
  | write m k r xs hk =>
    intro w
    refine ⟨⟨w.nodup, fun i k r hr => ?_, w.inj⟩, fun j hj => ?_, fun _ _ => rfl, ?_, rfl, fun _ => rfl, fun _ => rfl, fun _ _ h => h⟩
    · have := w.valid i k r hr; simp [Mem.write]; omega
    · refine abs_congr rfl fun k' r' hr' => ?_
      rw [elems_write, if_neg]
      rintro ⟨rfl, -⟩
      exact hj (w.inj _ _ _ _ _ hr' hk).1
    · simp [Mem.write]
  | writeFree m r xs hf =>
    intro w
    refine ⟨⟨w.nodup, fun i k r hr => ?_, w.inj⟩, fun j hj => ?_, fun _ _ => rfl, ?_, rfl, fun _ => rfl, fun _ => rfl, fun _ _ h => h⟩
    · have := w.valid i k r hr; simp [Mem.write]; omega
    · refine abs_congr rfl fun k' r' hr' => ?_
      rw [elems_write, if_neg]
      rintro ⟨rfl, -⟩
      exact hf _ _ hr'
    · simp [Mem.write]
  | put m k xs =>
    intro w
    have hl : (m.put i k xs).lists.length = m.lists.length + 1 := by simp [Mem.put, Mem.alloc, setDict]
    have hg : ∀ j k' r, ((m.put i k xs).dict j).get? k' = some r →
        (j = i ∧ k' = k ∧ r = m.lists.length) ∨ (m.dict j).get? k' = some r := by
      intro j k' r hr
      rw [dict_put] at hr
      split at hr
      · rename_i hc
        obtain ⟨rfl, -⟩ := hc
        rw [Dict.get?_set] at hr
        split at hr
        · rename_i hk; left; exact ⟨rfl, hk.symm, (Option.some.inj hr).symm⟩
        · exact .inr hr
      · exact .inr hr
    refine ⟨⟨fun j => ?_, fun j k' r hr => ?_, fun j1 k1 j2 k2 r h1 h2 => ?_⟩, fun j hj => ?_, fun j hj => by rw [dict_put, if_neg (fun h => hj h.1.symm)], by omega, ?_, fun j => ?_, fun j => ?_, fun r hr hf j k' hc => ?_⟩
    · rw [dict_put]
      split
      · exact Dict.keys_set_nodup (w.nodup _) _ _
      · exact w.nodup _
    · rcases hg j k' r hr with h | h
      · omega
      · have := w.valid _ _ _ h; omega
    · rcases hg _ _ _ h1 with ⟨a1, b1, c1⟩ | h1'
      · rcases hg _ _ _ h2 with ⟨a2, b2, _⟩ | h2'
        · exact ⟨a1.trans a2.symm, b1.trans b2.symm⟩
        · have := w.valid _ _ _ h2'; omega
      · rcases hg _ _ _ h2 with ⟨a2, b2, c2⟩ | h2'
        · have := w.valid _ _ _ h1'; omega
        · exact w.inj _ _ _ _ _ h1' h2'
    · refine abs_congr ?_ fun k' r hr => elems_put m i k xs (w.valid j k' r hr)
      rw [dict_put, if_neg (fun h => hj h.1.symm)]
    · simp [Mem.put, Mem.alloc, setDict]
    · exact (obj_setDict _ _ _ _).1
    · exact (obj_setDict _ _ _ _).2
    · rcases hg _ _ _ hc with ⟨_, _, h⟩ | h
      · omega
      · exact hf _ _ h
  | erase m k =>
    intro w
    have hg : ∀ j k' r, ((m.setDict i ((m.dict i).erase k)).dict j).get? k' = some r → (m.dict j).get? k' = some r := by
      intro j k' r hr
      rw [dict_setDict] at hr
      split at hr
      · rename_i hc
        obtain ⟨rfl, -⟩ := hc
        rw [Dict.get?_erase] at hr
        split at hr
        · cases hr
        · exact hr
      · exact hr
    refine ⟨⟨fun j => ?_, fun j k' r hr => w.valid _ _ _ (hg _ _ _ hr), fun j1 k1 j2 k2 r h1 h2 => w.inj _ _ _ _ _ (hg _ _ _ h1) (hg _ _ _ h2)⟩, fun j hj => ?_, fun j hj => by rw [dict_setDict, if_neg (fun h => hj h.1.symm)], Nat.le_refl _, ?_, fun j => ?_, fun j => ?_, fun r hr hf j k' hc => hf _ _ (hg _ _ _ hc)⟩
    · rw [dict_setDict]
      split
      · exact Dict.keys_erase_nodup (w.nodup _) _
      · exact w.nodup _
    · refine abs_congr ?_ fun k' r hr => rfl
      rw [dict_setDict, if_neg (fun h => hj h.1.symm)]
    · simp [setDict]
    · exact (obj_setDict _ _ _ _).1
    · exact (obj_setDict _ _ _ _).2
  | clear m =>
    intro w
    have hg : ∀ j k' r, ((m.setDict i []).dict j).get? k' = some r → (m.dict j).get? k' = some r := by
      intro j k' r hr
      rw [dict_setDict] at hr
      split at hr
      · cases hr
      · exact hr
    refine ⟨⟨fun j => ?_, fun j k' r hr => w.valid _ _ _ (hg _ _ _ hr), fun j1 k1 j2 k2 r h1 h2 => w.inj _ _ _ _ _ (hg _ _ _ h1) (hg _ _ _ h2)⟩, fun j hj => ?_, fun j hj => by rw [dict_setDict, if_neg (fun h => hj h.1.symm)], Nat.le_refl _, ?_, fun j => ?_, fun j => ?_, fun r hr hf j k' hc => hf _ _ (hg _ _ _ hc)⟩
    · rw [dict_setDict]
      split
      · simp [Dict.keys]
      · exact w.nodup _
    · refine abs_congr ?_ fun k' r hr => rfl
      rw [dict_setDict, if_neg (fun h => hj h.1.symm)]
    · simp [setDict]
    · exact (obj_setDict _ _ _ _).1
    · exact (obj_setDict _ _ _ _).2
  | trans h1 h2 ih1 ih2 =>
    intro w
    have a := ih1 w
    have b := ih2 a.wf
    exact ⟨b.wf, fun j hj => (b.abs j hj).trans (a.abs j hj), fun j hj => (b.dict j hj).trans (a.dict j hj), Nat.le_trans a.lists b.lists, b.dicts.trans a.dicts,
      fun j => (b.cls j).trans (a.cls j), fun j => (b.mutbl j).trans (a.mutbl j),
      fun r hr hf => b.free r (by have := a.lists; omega) (a.free r hr hf)⟩

/-! ## Every method is made of such steps -/

theorem getItem_touch (i : Nat) (k : κ) (m : Mem κ α) : Touch i m (getItem i k m).2 := by
  unfold getItem
  split
  · exact .refl _
  · split
    · exact .refl _
    · exact .alloc _ _

theorem get_touch (i : Nat) (k : κ) (v : Val α) (m : Mem κ α) : Touch i m (get i k v m).2 := by
  have h := getItem_touch i k m
  unfold get
  generalize getItem i k m = z at *
  obtain ⟨r, m'⟩ := z
  split <;> simp_all
  split <;> simp_all

theorem getList_touch (i : Nat) (k : κ) (v : Val α) (m : Mem κ α) : Touch i m (getList i k v m).2 := by
  unfold getList
  split
  · exact .alloc _ _
  · split
    · exact .alloc _ _
    · exact .refl _

theorem setItem_touch (C : Conv κ α) (i : Nat) (k : κ) (v : Val α) (m : Mem κ α) : Touch i m (setItem C i k v m).2 := by
  unfold setItem
  split
  · exact .put _ _ _
  · split
    · exact .refl _
    · exact .trans (.alloc _ _) (.put _ _ _)
  · split
    · exact .refl _
    · split
      · exact .refl _
      · split
        · exact .refl _
        · exact .put _ _ _

theorem setList_touch (C : Conv κ α) (i : Nat) (k : κ) (v : Val α) (m : Mem κ α) : Touch i m (setList C i k v m).2 := by
  have hb : Touch i m (m.setListBase i k v) := by unfold setListBase; split <;> exact .put _ _ _
  unfold setList
  split
  · exact hb
  · split
    · exact .refl _
    · exact hb
  · split
    · exact .refl _
    · split
      · exact .refl _
      · split
        · exact .refl _
        · split
          · exact .refl _
          · exact .put _ _ _

theorem delItem_touch (i : Nat) (k : κ) (m : Mem κ α) : Touch i m (delItem i k m).2 := by
  unfold delItem
  split
  · exact .refl _
  · split
    · exact .erase _ _
    · exact .refl _

/-- The list is the dictionary's own, or in no dictionary. -/
def Own (m : Mem κ α) (i : Nat) (r : Nat) : Prop :=
  (∃ k, (m.dict i).get? k = some r) ∨ ∀ j k, (m.dict j).get? k ≠ some r

theorem setListDefault_touch (C : Conv κ α) (i : Nat) (k : κ) (p : Val α) (m : Mem κ α) (w : m.WF) :
    Touch i m (setListDefault C i k p m).2 ∧
    ∀ r, (setListDefault C i k p m).1 = .ok (.list r) → Own (setListDefault C i k p m).2 i r := by
  unfold setListDefault
  split
  · exact ⟨.refl _, by simp⟩
  · have h1 : Touch i m (ensureList C i k p m).2 := by
      unfold ensureList
      split
      · exact .refl _
      · split
        · exact .trans (.alloc _ _) (setList_touch ..)
        · exact setList_touch ..
    generalize (ensureList C i k p m) = z at *
    obtain ⟨x, m1⟩ := z
    have w1 := (h1.kept w).wf
    cases x with
    | error e => exact ⟨h1, by simp⟩
    | ok u =>
      simp only
      cases hg : (m1.dict i).get? k with
      | some r =>
        simp only [getListLive, hg]
        refine ⟨h1, fun r' hr' => .inl ⟨k, ?_⟩⟩
        split at hr'
        · cases hr'
        · cases hr'; exact hg
      | none =>
        simp only [getListLive, hg]
        refine ⟨.trans h1 (.alloc _ _), fun r' hr' => .inr fun j k' hc => ?_⟩
        split at hr'
        · cases hr'
        · cases hr'
          have := w1.valid j k' _ hc
          simp [Mem.alloc] at this

theorem Touch.own {i : Nat} {m : Mem κ α} {r : Nat} (h : m.Own i r) (xs : List (Val α)) : Touch i m (m.write r xs) := by
  rcases h with ⟨k, h⟩ | h
  · exact .write _ k _ _ h
  · exact .writeFree _ _ _ h

theorem appendBase_touch (C : Conv κ α) (i : Nat) (k : κ) (v : Val α) (m : Mem κ α) (w : m.WF) :
    Touch i m (appendBase C i k v m).2 := by
  have h := setListDefault_touch C i k .none m w
  unfold appendBase
  generalize setListDefault C i k .none m = z at *
  obtain ⟨x, m1⟩ := z
  cases x with
  | error e => exact h.1
  | ok x =>
    cases x with
    | list r => exact .trans h.1 (.own (h.2 r rfl) _)
    | none => exact h.1
    | atom a => exact h.1

theorem appendList_touch (C : Conv κ α) (i : Nat) (k : κ) (v : Val α) (m : Mem κ α) (w : m.WF) :
    Touch i m (appendList C i k v m).2 := by
  unfold appendList
  split
  · exact .refl _
  · split
    · split
      · exact .refl _
      · split
        · exact .refl _
        · exact appendBase_touch _ _ _ _ _ w
    · exact appendBase_touch _ _ _ _ _ w

theorem setDefaultBase_touch (C : Conv κ α) (i : Nat) (k : κ) (v : Val α) (m : Mem κ α) :
    Touch i m (setDefaultBase C i k v m).2 := by
  have h1 : Touch i m (if m.contains i k then (.ok (), m) else setItem C i k v m).2 := by
    split
    · exact .refl _
    · exact setItem_touch ..
  unfold setDefaultBase
  generalize (if m.contains i k then (.ok (), m) else setItem C i k v m) = z at *
  obtain ⟨x, m1⟩ := z
  cases x with
  | error e => exact h1
  | ok u =>
    simp only
    have h2 := getItem_touch i k m1
    generalize getItem i k m1 = z at *
    obtain ⟨x, m2⟩ := z
    cases x <;> exact .trans h1 h2

theorem setDefault_touch (C : Conv κ α) (i : Nat) (k : κ) (v : Val α) (m : Mem κ α) :
    Touch i m (setDefault C i k v m).2 := by
  unfold setDefault
  split
  · exact .refl _
  · split
    · split
      · exact .refl _
      · split
        · exact .refl _
        · exact setDefaultBase_touch ..
    · exact setDefaultBase_touch ..

theorem pop_touch (i : Nat) (k : κ) (d : Option (Val α)) (m : Mem κ α) : Touch i m (pop i k d m).2 := by
  unfold pop
  split
  · exact .refl _
  · split
    · exact .erase _ _
    · split <;> exact .refl _

theorem popItem_touch (i n : Nat) (m : Mem κ α) : Touch i m (popItem i n m).2 := by
  unfold popItem
  split
  · exact .refl _
  · split
    · exact .erase _ _
    · exact .refl _

theorem clear_touch (i : Nat) (m : Mem κ α) : Touch i m (clear i m).2 := by
  unfold clear
  split
  · exact .refl _
  · exact .clear _

theorem appendAll_touch (C : Conv κ α) (i : Nat) (items : List (κ × Val α)) (m : Mem κ α) (w : m.WF) :
    Touch i m (appendAll C i items m).2 := by
  induction items generalizing m with
  | nil => exact .refl _
  | cons p t ih =>
    obtain ⟨k, v⟩ := p
    have h := appendBase_touch C i k v m w
    unfold appendAll
    generalize appendBase C i k v m = z at *
    obtain ⟨x, m1⟩ := z
    cases x with
    | error e => exact h
    | ok u => exact .trans h (ih _ (h.kept w).wf)

theorem extendAll_touch (C : Conv κ α) (i : Nat) (items : Dict κ Nat) (m : Mem κ α) (w : m.WF) :
    Touch i m (extendAll C i items m).2 := by
  induction items generalizing m with
  | nil => exact .refl _
  | cons p t ih =>
    obtain ⟨k, r'⟩ := p
    have h := setListDefault_touch C i k .none m w
    unfold extendAll
    generalize setListDefault C i k .none m = z at *
    obtain ⟨x, m1⟩ := z
    cases x with
    | error e => exact h.1
    | ok x =>
      cases x with
      | list r =>
        have h2 : Touch i m (m1.write r (m1.elems r ++ m1.elems r')) := .trans h.1 (.own (h.2 r rfl) _)
        exact .trans h2 (ih _ (h2.kept w).wf)
      | none => exact h.1
      | atom a => exact h.1

theorem update_touch (C : Conv κ α) (i : Nat) (arg : UpdArg κ α) (kw : List (κ × Val α)) (m : Mem κ α) (w : m.WF) :
    Touch i m (update C i arg kw m).2 := by
  unfold update
  split
  · split <;> exact .refl _
  · have h1 : Touch i m (updateArg C i arg m).2 := by
      unfold updateArg
      cases arg with
      | absent => exact .refl _
      | other => exact .refl _
      | mvd j => exact extendAll_touch _ _ _ _ w
      | mapping items =>
        have := appendAll_touch C i items m w
        simp only
        split
        · rename_i he; rw [he] at this; exact this
        · exact this
    generalize (updateArg C i arg m) = z at *
    obtain ⟨x, m1⟩ := z
    cases x with
    | error e => exact h1
    | ok u => exact .trans h1 (appendAll_touch _ _ _ _ (h1.kept w).wf)

theorem drop_snd {β : Type} (r : Res (Mem κ α) β) : (drop r).2 = r.2 := by
  unfold drop; split <;> rfl

theorem call_touch (C : Conv κ α) (i : Nat) (c : Spec.Call κ α) (m : Mem κ α) (w : m.WF) :
    Touch i m (call C i c m).2 := by
  cases c with
  | set k v => exact setItem_touch ..
  | setlist k p => exact setList_touch ..
  | setdefault k v => simp only [call, drop_snd]; exact setDefault_touch ..
  | setlistdefault k p => simp only [call, drop_snd]; exact (setListDefault_touch _ _ _ _ _ w).1
  | append k v => exact appendList_touch _ _ _ _ _ w
  | update a kw => exact update_touch _ _ _ _ _ w
  | del k => exact delItem_touch ..
  | pop k d => simp only [call, drop_snd]; exact pop_touch ..
  | clear => exact clear_touch ..

/-! ## What the methods do to the abstract map -/

theorem abs_put {m : Mem κ α} (w : m.WF) {i : Nat} (hi : i < m.dicts.length) (k : κ) (xs : List (Val α)) :
    (m.put i k xs).abs i = (m.abs i).upd k (some xs) := by
  funext k'
  unfold abs Spec.AMap.upd
  rw [dict_put, if_pos ⟨rfl, hi⟩, Dict.get?_set]
  by_cases h : k' = k
  · subst h; simp [elems_put_new]
  · rw [if_neg (Ne.symm h), if_neg h]
    change _ = Option.map m.elems ((m.dict i).get? k')
    cases hg : (m.dict i).get? k' with
    | none => rfl
    | some r => simp [elems_put m i k xs (w.valid _ _ _ hg)]

theorem abs_alloc {m : Mem κ α} (w : m.WF) (xs : List (Val α)) (i : Nat) : (m.alloc xs).2.abs i = m.abs i :=
  abs_congr rfl fun k r h => elems_alloc m xs (w.valid i k r h)

theorem abs_write {m : Mem κ α} (w : m.WF) {i : Nat} {k : κ} {r : Nat} (h : (m.dict i).get? k = some r)
    (xs : List (Val α)) : (m.write r xs).abs i = (m.abs i).upd k (some xs) := by
  funext k'
  unfold abs Spec.AMap.upd
  rw [dict_write]
  by_cases hk : k' = k
  · subst hk; simp [h, elems_write, w.valid _ _ _ h]
  · rw [if_neg hk]
    change _ = Option.map m.elems ((m.dict i).get? k')
    cases hg : (m.dict i).get? k' with
    | none => rfl
    | some r' =>
      simp only [Option.map_some, elems_write]
      rw [if_neg]
      rintro ⟨rfl, -⟩
      exact hk (w.inj _ _ _ _ _ hg h).2

theorem abs_write_free {m : Mem κ α} {i : Nat} {r : Nat} (h : ∀ k, (m.dict i).get? k ≠ some r)
    (xs : List (Val α)) : (m.write r xs).abs i = m.abs i := by
  refine abs_congr rfl fun k' r' hr' => ?_
  rw [elems_write, if_neg]
  rintro ⟨rfl, -⟩
  exact h _ hr'

theorem abs_erase {m : Mem κ α} {i : Nat} (hi : i < m.dicts.length) (k : κ) :
    (m.setDict i ((m.dict i).erase k)).abs i = (m.abs i).upd k none := by
  funext k'
  unfold abs Spec.AMap.upd
  rw [dict_setDict, if_pos ⟨rfl, hi⟩, Dict.get?_erase]
  by_cases h : k' = k
  · subst h; simp
  · rw [if_neg (Ne.symm h), if_neg h]; rfl

theorem abs_clear {m : Mem κ α} {i : Nat} (hi : i < m.dicts.length) : (m.setDict i []).abs i = fun _ => none := by
  funext k'
  unfold abs
  rw [dict_setDict, if_pos ⟨rfl, hi⟩]
  rfl

theorem contains_iff (m : Mem κ α) (i : Nat) (k : κ) : m.contains i k = (m.abs i k).isSome := by
  unfold contains abs; simp

/-- The dictionary `i` can be changed and takes the key `k` as it is. -/
def Works (C : Conv κ α) (m : Mem κ α) (i : Nat) (k : κ) : Prop :=
  i < m.dicts.length ∧
  ((m.obj i).cls = .plain ∨ ((m.obj i).cls = .query ∧ (m.obj i).mutable = true ∧ C.key k = .ok k))

theorem Works.of_kept {C : Conv κ α} {m m' : Mem κ α} {i j : Nat} {k : κ} (h : Kept j m m') (w : Works C m i k) :
    Works C m' i k := by
  refine ⟨?_, ?_⟩
  · rw [h.dicts]; exact w.1
  · rw [h.cls, h.mutbl]; exact w.2

theorem Works.assert {C : Conv κ α} {m : Mem κ α} {i : Nat} {k : κ} (w : Works C m i k) : m.assertMutable i = .ok () := by
  unfold assertMutable
  rcases w.2 with h | ⟨h1, h2, -⟩
  · simp [h]
  · simp [h1, h2]

theorem Works.not_immutable {C : Conv κ α} {m : Mem κ α} {i : Nat} {k : κ} (w : Works C m i k) : (m.obj i).cls ≠ .immutable := by
  rcases w.2 with h | ⟨h1, -⟩ <;> simp [*]

theorem ensureList_none {C : Conv κ α} {m : Mem κ α} (wf : m.WF) {i : Nat} {k : κ} (w : Works C m i k) :
    ∃ m', ensureList C i k .none m = (.ok (), m') ∧ Touch i m m' ∧ Works C m' i k ∧
      m'.abs i = (if (m.abs i k).isSome then m.abs i else (m.abs i).upd k (some [])) ∧ (m'.abs i k).isSome := by
  unfold ensureList
  by_cases hc : m.contains i k
  · rw [if_pos hc]
    rw [contains_iff] at hc
    exact ⟨m, rfl, .refl _, w, by rw [if_pos hc], hc⟩
  · rw [if_neg hc]
    rw [contains_iff] at hc
    rw [if_neg hc]
    have ta : Touch i m (m.alloc []).2 := .alloc _ _
    have tp : Touch i m ((m.alloc []).2.put i k []) := .trans ta (.put _ _ _)
    refine ⟨(m.alloc []).2.put i k [], ?_, tp, w.of_kept (tp.kept wf), ?_, ?_⟩
    · have he : ((m.alloc []).2).elems m.lists.length = [] := elems_alloc_new m []
      rcases w.2 with h | ⟨h1, h2, h3⟩
      · simp only [alloc] at *; simp [setList, obj] at *; rw [h]; simp [setListBase, he]
      · have hm := w.assert
        simp only [alloc] at *
        simp only [setList, assertMutable, obj] at *
        simp [h1, h2, h3, he, convAll]
    · rw [abs_put (ta.kept wf).wf (by rw [(ta.kept wf).dicts]; exact w.1), abs_alloc wf]
    · rw [abs_put (ta.kept wf).wf (by rw [(ta.kept wf).dicts]; exact w.1)]; simp [Spec.AMap.upd]

theorem setListDefault_none {C : Conv κ α} {m : Mem κ α} (wf : m.WF) {i : Nat} {k : κ} (w : Works C m i k) :
    ∃ m' r, setListDefault C i k .none m = (.ok (.list r), m') ∧ Touch i m m' ∧ Works C m' i k ∧
      (m'.dict i).get? k = some r ∧
      m'.abs i = (if (m.abs i k).isSome then m.abs i else (m.abs i).upd k (some [])) := by
  obtain ⟨m', h1, t, w', h2, h3⟩ := ensureList_none wf w
  unfold setListDefault
  rw [w.assert, h1]
  simp only
  unfold abs at h3
  cases hg : (m'.dict i).get? k with
  | none => rw [hg] at h3; simp at h3
  | some r =>
    refine ⟨m', r, ?_, t, w', hg, h2⟩
    simp [getListLive, hg, w'.not_immutable]

theorem appendBase_works {C : Conv κ α} {m : Mem κ α} (wf : m.WF) {i : Nat} {k : κ} (w : Works C m i k) (v : Val α) :
    ∃ m', appendBase C i k v m = (.ok (), m') ∧ Touch i m m' ∧ m'.abs i = (m.abs i).add k [v] := by
  obtain ⟨m', r, h1, t, w', hg, h2⟩ := setListDefault_none wf w
  unfold appendBase
  rw [h1]
  refine ⟨m'.write r (m'.elems r ++ [v]), rfl, .trans t (.write _ _ _ _ hg), ?_⟩
  rw [abs_write (t.kept wf).wf hg]
  have : m'.elems r = (m.abs i k).getD [] := by
    have h3 : m'.abs i k = some (m'.elems r) := by unfold abs; simp [hg]
    rw [h2] at h3
    split at h3
    · rw [h3]; rfl
    · rename_i hn
      simp only [Spec.AMap.upd, if_true] at h3
      cases h4 : m.abs i k with
      | none => simpa using (Option.some.inj h3).symm
      | some x => rw [h4] at hn; simp at hn
  rw [this, h2]
  funext k'
  unfold Spec.AMap.add Spec.AMap.upd
  split
  · rfl
  · split <;> simp [*]

theorem extendAll_works {C : Conv κ α} {i j : Nat} {B : Spec.AMap κ α} (items : Dict κ Nat) (hn : items.keys.Nodup)
    (m : Mem κ α) (wf : m.WF) (w : ∀ k ∈ items.keys, Works C m i k)
    (hr : ∀ k r, (k, r) ∈ items → (m.dict j).get? k = some r ∧ m.abs j k = B k) :
    ∃ m', extendAll C i items m = (.ok (), m') ∧
      m'.abs i = items.keys.foldl (fun A k => A.add k ((B k).getD [])) (m.abs i) := by
  induction items generalizing m with
  | nil => exact ⟨m, rfl, rfl⟩
  | cons p t ih =>
    obtain ⟨k, r'⟩ := p
    simp only [Dict.keys, List.map_cons, List.nodup_cons] at hn
    have wk : Works C m i k := w k (by simp [Dict.keys])
    obtain ⟨m1, r, h1, t1, w1, hg, h2⟩ := setListDefault_none wf wk
    have k1 := t1.kept wf
    obtain ⟨hd, hB⟩ := hr k r' (by simp)
    have he : m1.elems r' = (B k).getD [] := by
      have h3 : (m1.dict j).get? k = some r' ∧ m1.abs j k = m.abs j k := by
        by_cases hj : j = i
        · subst hj
          have hs : (m.abs j k).isSome := by unfold abs; simp [hd]
          have he : ensureList C j k .none m = (.ok (), m) := by
            unfold ensureList; rw [contains_iff, if_pos hs]
          have : m1 = m := by
            have h4 := h1
            unfold setListDefault at h4
            rw [wk.assert, he] at h4
            simp only [getListLive, hd] at h4
            exact (Prod.mk.inj h4).2.symm
          rw [this]; exact ⟨hd, rfl⟩
        · rw [k1.dict j hj, k1.abs j hj]; exact ⟨hd, rfl⟩
      rw [← hB, ← h3.2]
      unfold abs; simp [h3.1]
    have hr1 : m1.elems r = (m.abs i k).getD [] := by
      have h3 : m1.abs i k = some (m1.elems r) := by unfold abs; simp [hg]
      rw [h2] at h3
      split at h3
      · rw [h3]; rfl
      · rename_i hn
        simp only [Spec.AMap.upd, if_true] at h3
        cases h4 : m.abs i k with
        | none => simpa using (Option.some.inj h3).symm
        | some x => rw [h4] at hn; simp at hn
    have t2 : Touch i m (m1.write r (m1.elems r ++ m1.elems r')) := .trans t1 (.write _ _ _ _ hg)
    have k2 := t2.kept wf
    have ha : (m1.write r (m1.elems r ++ m1.elems r')).abs i = (m.abs i).add k ((B k).getD []) := by
      rw [abs_write k1.wf hg, he, hr1, h2]
      funext k'
      unfold Spec.AMap.add Spec.AMap.upd
      split
      · rfl
      · split <;> simp [*]
    obtain ⟨m', h3, h4⟩ := ih hn.2 _ k2.wf (fun k' hk' => (w k' (by simp [Dict.keys] at *; exact .inr hk')).of_kept k2) (by
      intro k' r'' hm
      have hk : k' ≠ k := by rintro rfl; exact hn.1 (List.mem_map.2 ⟨_, hm, rfl⟩)
      obtain ⟨hd', hB'⟩ := hr k' r'' (by simp [hm])
      by_cases hj : j = i
      · subst hj
        have hs : (m.abs j k).isSome := by unfold abs; simp [hd]
        have hee : ensureList C j k .none m = (.ok (), m) := by
          unfold ensureList; rw [contains_iff, if_pos hs]
        have : m1 = m := by
          have h4 := h1
          unfold setListDefault at h4
          rw [wk.assert, hee] at h4
          simp only [getListLive, hd] at h4
          exact (Prod.mk.inj h4).2.symm
        refine ⟨by rw [this]; exact hd', ?_⟩
        rw [ha, ← hB']
        simp [Spec.AMap.add, Spec.AMap.upd, hk]
      · rw [k2.dict j hj, k2.abs j hj]; exact ⟨hd', hB'⟩)
    refine ⟨m', ?_, ?_⟩
    · unfold extendAll; rw [h1]; exact h3
    · rw [h4, ha]; rfl

theorem foldl_add (A : Spec.AMap κ α) (B : Spec.AMap κ α) (ks : List κ) (hn : ks.Nodup) (k' : κ) :
    (ks.foldl (fun A k => A.add k ((B k).getD [])) A) k' =
      if k' ∈ ks then some ((A k').getD [] ++ (B k').getD []) else A k' := by
  induction ks generalizing A with
  | nil => simp
  | cons k t ih =>
    simp only [List.nodup_cons] at hn
    simp only [List.foldl_cons, ih _ hn.2, List.mem_cons]
    by_cases h : k' = k
    · subst h; simp [hn.1, Spec.AMap.add, Spec.AMap.upd]
    · simp [h, Spec.AMap.add, Spec.AMap.upd]

theorem appendAll_works {C : Conv κ α} {i : Nat} (items : List (κ × Val α)) (m : Mem κ α) (wf : m.WF)
    (w : ∀ p ∈ items, Works C m i p.1) :
    ∃ m', appendAll C i items m = (.ok (), m') ∧ Touch i m m' ∧ m'.abs i = (m.abs i).addAll items := by
  induction items generalizing m with
  | nil => exact ⟨m, rfl, .refl _, rfl⟩
  | cons p t ih =>
    obtain ⟨k, v⟩ := p
    obtain ⟨m1, h1, t1, a1⟩ := appendBase_works wf (w (k, v) (by simp)) v
    obtain ⟨m2, h2, t2, a2⟩ := ih m1 (t1.kept wf).wf (fun p hp => (w p (by simp [hp])).of_kept (t1.kept wf))
    refine ⟨m2, ?_, .trans t1 t2, ?_⟩
    · unfold appendAll; rw [h1]; exact h2
    · rw [a2, a1]; rfl

theorem setDefaultBase_plain {C : Conv κ α} {i : Nat} {m : Mem κ α} (wf : m.WF) (hi : i < m.dicts.length)
    (hc : (m.obj i).cls = .plain) (k : κ) (v : Val α) :
    (setDefaultBase C i k v m).1.isOk ∧
    (setDefaultBase C i k v m).2.abs i = (if (m.abs i k).isSome then m.abs i else (m.abs i).upd k (some [v])) := by
  unfold setDefaultBase
  rw [contains_iff]
  by_cases h : (m.abs i k).isSome
  · rw [if_pos h, if_pos h]
    have h' := h
    unfold abs at h
    cases hg : (m.dict i).get? k with
    | none => rw [hg] at h; simp at h
    | some r =>
      simp only [getItem, hg]
      cases hl : (m.elems r).getLast? with
      | some v => exact ⟨rfl, rfl⟩
      | none => exact ⟨rfl, abs_alloc wf _ _⟩
  · rw [if_neg h, if_neg h]
    simp only [setItem, hc]
    have hg : ((m.put i k [v]).dict i).get? k = some m.lists.length := by
      rw [dict_put, if_pos ⟨rfl, hi⟩, Dict.get?_set, if_pos rfl]
    have hl : ((m.put i k [v]).elems m.lists.length).getLast? = some v := by rw [elems_put_new]; rfl
    simp only [getItem, hg, hl]
    exact ⟨rfl, abs_put wf hi _ _⟩

theorem call_works {C : Conv κ α} {i : Nat} {m : Mem κ α} (wf : m.WF) (hi : i < m.dicts.length)
    (hc : (m.obj i).cls = .plain) (c : Spec.Call κ α) :
    match c.effect m.elems m.abs (m.abs i) with
    | .ok A => (call C i c m).1 = .ok () ∧ (call C i c m).2.abs i = A
    | .error e => (call C i c m).1 = .error e ∧ (call C i c m).2.abs i = m.abs i := by
  have W : ∀ k, Works C m i k := fun k => ⟨hi, .inl hc⟩
  have hA : m.assertMutable i = .ok () := by unfold assertMutable; simp [hc]
  have setListP : ∀ (k : κ) (p : Val α) (m : Mem κ α), m.WF → i < m.dicts.length → (m.obj i).cls = .plain →
      (setList C i k p m).1 = .ok () ∧ (setList C i k p m).2.abs i = (m.abs i).upd k (some (Spec.asList m.elems p)) := by
    intro k p m wf hi hc
    unfold setList
    simp only [hc]
    refine ⟨trivial, ?_⟩
    cases p <;> simp only [setListBase, abs_put wf hi, Spec.asList]
  cases c with
  | set k v =>
    simp only [Spec.Call.effect, call, setItem, hc]
    exact ⟨trivial, abs_put wf hi _ _⟩
  | setlist k p => exact setListP k p m wf hi hc
  | setdefault k v =>
    have := setDefaultBase_plain (C := C) wf hi hc k v
    simp only [Spec.Call.effect, call, setDefault, hA, hc, if_neg (by simp : ¬ DCls.plain = DCls.query)]
    generalize setDefaultBase C i k v m = z at *
    obtain ⟨x, m1⟩ := z
    cases x with
    | error e => exact absurd this.1 (by simp [Except.isOk, Except.toBool])
    | ok x => exact ⟨rfl, this.2⟩
  | setlistdefault k p =>
    simp only [Spec.Call.effect, call, setListDefault, hA]
    have key : (ensureList C i k p m).1 = .ok () ∧ (ensureList C i k p m).2.abs i =
        (if (m.abs i k).isSome then m.abs i else (m.abs i).upd k (some (Spec.asList m.elems p))) := by
      unfold ensureList
      rw [contains_iff]
      by_cases h : (m.abs i k).isSome
      · simp [h]
      · simp only [h, if_false]
        cases p with
        | none =>
          have ta : Touch i m (m.alloc []).2 := .alloc _ _
          have := setListP k (.list m.lists.length) (m.alloc []).2 (ta.kept wf).wf (by rw [(ta.kept wf).dicts]; exact hi) hc
          simp only [Spec.asList, elems_alloc_new, abs_alloc wf] at this
          exact this
        | list r => exact setListP k _ m wf hi hc
        | atom a => exact setListP k _ m wf hi hc
    have tt : Touch i m (ensureList C i k p m).2 := by
      unfold ensureList
      split
      · exact .refl _
      · split
        · exact .trans (.alloc _ _) (setList_touch ..)
        · exact setList_touch ..
    generalize ensureList C i k p m = z at *
    obtain ⟨x, m1⟩ := z
    simp only at key
    obtain ⟨rfl, k2⟩ := key
    have hw := (tt.kept wf).wf
    simp only [getListLive]
    split
    · rename_i he
      split at he <;> cases he
    · rename_i he
      split at he
      · cases he; exact ⟨rfl, k2⟩
      · cases he; exact ⟨rfl, (abs_alloc hw _ _).trans k2⟩
  | append k v =>
    obtain ⟨m', h1, -, h2⟩ := appendBase_works wf (W k) v
    simp only [Spec.Call.effect, call, appendList, hA, hc, if_neg (by simp : ¬ DCls.plain = DCls.query), h1]
    exact ⟨trivial, h2⟩
  | update arg kw =>
    simp only [call, update, hc, if_neg (by simp : ¬ DCls.plain = DCls.immutable)]
    have key : match arg with
        | .other => updateArg C i arg m = (.error .attributeError, m)
        | .absent => updateArg C i arg m = (.ok (), m)
        | .mvd j => ∃ m', updateArg C i arg m = (.ok (), m') ∧ Touch i m m' ∧ m'.abs i = (m.abs i).join (m.abs j)
        | .mapping items => ∃ m', updateArg C i arg m = (.ok (), m') ∧ Touch i m m' ∧ m'.abs i = (m.abs i).addAll items := by
      cases arg with
      | other => rfl
      | absent => rfl
      | mvd j =>
        obtain ⟨m', h1, h2⟩ := extendAll_works (C := C) (i := i) (j := j) (B := m.abs j) (m.dict j) (wf.nodup j) m wf
          (fun k _ => W k) (fun k r h => ⟨Dict.get?_of_mem (wf.nodup j) h, rfl⟩)
        have ht := extendAll_touch C i (m.dict j) m wf
        rw [h1] at ht
        refine ⟨m', h1, ht, ?_⟩
        rw [h2]
        funext k
        rw [foldl_add _ _ _ (wf.nodup j)]
        unfold Spec.AMap.join
        by_cases hk : k ∈ (m.dict j).keys
        · rw [if_pos hk]
          have := (Dict.get?_isSome (m.dict j) k).2 hk
          cases hg : (m.dict j).get? k with
          | none => rw [hg] at this; simp at this
          | some r => simp [abs, hg]
        · rw [if_neg hk]
          have : ¬ ((m.dict j).get? k).isSome := fun h => hk ((Dict.get?_isSome _ _).1 h)
          cases hg : (m.dict j).get? k with
          | none => simp [abs, hg]
          | some r => rw [hg] at this; simp at this
      | mapping items =>
        obtain ⟨m', h1, h2, h3⟩ := appendAll_works (C := C) (i := i) items m wf (fun p _ => W p.1)
        exact ⟨m', by simp only [updateArg, h1], h2, h3⟩
    have fin : ∀ m', Touch i m m' → (appendAll C i kw m').1 = .ok () ∧ (appendAll C i kw m').2.abs i = (m'.abs i).addAll kw := by
      intro m' ht
      obtain ⟨m2, h1, -, h2⟩ := appendAll_works (C := C) (i := i) kw m' (ht.kept wf).wf (fun p _ => (W p.1).of_kept (ht.kept wf))
      rw [h1]; exact ⟨rfl, h2⟩
    cases arg with
    | other => simp only at key; rw [key]; exact ⟨rfl, rfl⟩
    | absent => simp only at key; rw [key]; exact fin m (.refl _)
    | mvd j => obtain ⟨m', h1, h2, h3⟩ := key; rw [h1]; have := fin m' h2; rw [h3] at this; exact this
    | mapping items => obtain ⟨m', h1, h2, h3⟩ := key; rw [h1]; have := fin m' h2; rw [h3] at this; exact this
  | del k =>
    simp only [Spec.Call.effect, call, delItem, hA, contains_iff]
    by_cases h : (m.abs i k).isSome
    · simp only [h, if_true]; exact ⟨trivial, abs_erase hi k⟩
    · simp only [h, if_false]; exact ⟨rfl, rfl⟩
  | pop k d =>
    have hs : (m.abs i k).isSome = ((m.dict i).get? k).isSome := by unfold abs; simp
    simp only [Spec.Call.effect, call, pop, hc, if_neg (by simp : ¬ DCls.plain = DCls.query), hs]
    cases hg : (m.dict i).get? k with
    | some r => simp only [Option.isSome_some, if_true, drop]; exact ⟨trivial, abs_erase hi k⟩
    | none =>
      cases d with
      | none => simp [drop]
      | some v => simp [drop]
  | clear =>
    simp only [Spec.Call.effect, call, clear, hc, if_neg (by simp : ¬ DCls.plain = DCls.query)]
    exact ⟨trivial, abs_clear hi⟩

/-! ## Copies -/

theorem newDict_dict (m : Mem κ α) (cls : DCls) (b : Bool) (j : Nat) : (m.newDict cls b).dict j = m.dict j := by
  unfold newDict dict obj
  rcases Nat.lt_trichotomy j m.dicts.length with h | h | h
  · simp [List.getElem?_append_left h]
  · subst h; simp
  · rw [List.getElem?_eq_none (by simp; omega), List.getElem?_eq_none (by omega)]

theorem WF.newDict {m : Mem κ α} (wf : m.WF) (cls : DCls) (b : Bool) : (m.newDict cls b).WF := by
  refine ⟨fun i => ?_, fun i k r => ?_, fun i k i' k' r => ?_⟩
  · rw [newDict_dict]; exact wf.nodup i
  · rw [newDict_dict]; exact wf.valid i k r
  · rw [newDict_dict, newDict_dict]; exact wf.inj i k i' k' r

theorem newDict_abs (m : Mem κ α) (cls : DCls) (b : Bool) (j : Nat) : (m.newDict cls b).abs j = m.abs j :=
  abs_congr (newDict_dict ..) fun _ _ _ => rfl

theorem copyItems_works (c : Nat) (items : Dict κ Nat) (hn : items.keys.Nodup) (m : Mem κ α) (wf : m.WF)
    (hc : c < m.dicts.length) (hv : ∀ k r, (k, r) ∈ items → r < m.lists.length) :
    Touch c m (copyItems c items m) ∧
    ∀ k, (copyItems c items m).abs c k = (match items.get? k with | some r => some (m.elems r) | none => m.abs c k) := by
  induction items generalizing m with
  | nil => exact ⟨.refl _, fun k => rfl⟩
  | cons p t ih =>
    obtain ⟨k, r⟩ := p
    simp only [Dict.keys, List.map_cons, List.nodup_cons] at hn
    have tp : Touch c m (m.put c k (m.elems r)) := .put _ _ _
    have kp := tp.kept wf
    obtain ⟨h1, h2⟩ := ih hn.2 _ kp.wf (by rw [kp.dicts]; exact hc)
      (fun k' r' h => by have := hv k' r' (by simp [h]); have := kp.lists; omega)
    refine ⟨.trans tp h1, fun k' => ?_⟩
    unfold copyItems Dict.get?
    rw [h2]
    by_cases hk : k = k'
    · subst hk
      have : Dict.get? t k = none := by
        cases hg : Dict.get? t k with
        | none => rfl
        | some x => exact absurd ((Dict.get?_isSome t k).1 (by simp [hg])) hn.1
      rw [if_pos rfl, this, abs_put wf hc]
      simp [Spec.AMap.upd]
    · rw [if_neg hk]
      cases hg : Dict.get? t k' with
      | none => simp only; rw [abs_put wf hc]; simp [Spec.AMap.upd, Ne.symm hk]
      | some r' =>
        simp only
        have hp := Dict.mem_of_get? hg
        rw [elems_put m c k _ (hv k' r' (by simp [hp]))]

end Mem
end Verif
