import Verif.Props.MVDict
import Verif.Model.Views
/-!
# Lists that no value leads to
-/

namespace Verif
namespace Mem
open Spec
variable {κ α : Type} [DecidableEq κ]

/-- A value that is none of the lists in `B`. -/
def Good (B : Nat → Prop) (v : Val α) : Prop := ∀ r, v = .list r → ¬ B r

/-- No list has one of the lists in `B` among its elements. -/
def Clean (B : Nat → Prop) (m : Mem κ α) : Prop := ∀ s, ∀ v ∈ m.elems s, Good B v

/-- Conversions that make no lists out of other values. -/
structure Conv.Plain (C : Conv κ α) : Prop where
  val : ∀ v r, C.val v = .ok (.list r) → v = .list r
  iter : ∀ a vs r, C.iter a = .ok vs → Val.list r ∉ vs

variable {B : Nat → Prop}

theorem Clean.alloc {m : Mem κ α} (h : Clean B m) {xs : List (Val α)} (hx : ∀ v ∈ xs, Good B v) :
    Clean B (m.alloc xs).2 := by
  intro s v hv
  by_cases hs : s < m.lists.length
  · rw [elems_alloc m xs hs] at hv; exact h s v hv
  · by_cases hs2 : s = m.lists.length
    · subst hs2; rw [elems_alloc_new] at hv; exact hx v hv
    · have : (m.alloc xs).2.elems s = [] := by
        simp only [Mem.alloc, elems]
        rw [List.getElem?_eq_none (by simp; omega)]; rfl
      rw [this] at hv; cases hv

theorem Clean.write {m : Mem κ α} (h : Clean B m) {r : Nat} {xs : List (Val α)} (hx : ∀ v ∈ xs, Good B v) :
    Clean B (m.write r xs) := by
  intro s v hv
  rw [elems_write] at hv
  split at hv
  · exact hx v hv
  · exact h s v hv

theorem Clean.setDict {m : Mem κ α} (h : Clean B m) (i : Nat) (d : Dict κ Nat) : Clean B (m.setDict i d) := h

theorem Clean.newDict {m : Mem κ α} (h : Clean B m) (cls : DCls) (b : Bool) : Clean B (m.newDict cls b) := h

theorem Clean.put {m : Mem κ α} (h : Clean B m) (i : Nat) (k : κ) {xs : List (Val α)} (hx : ∀ v ∈ xs, Good B v) :
    Clean B (m.put i k xs) := by
  unfold Mem.put
  exact (h.alloc hx).setDict _ _

theorem good_atom (a : α) : Good B (.atom a) := fun _ h => by cases h
theorem good_none : Good B (.none : Val α) := fun _ h => by cases h
theorem good_single {v : Val α} (h : Good B v) : ∀ x ∈ [v], Good B x := by
  intro x hx; rw [List.mem_singleton] at hx; exact hx ▸ h

theorem Conv.Plain.good {C : Conv κ α} (hC : Conv.Plain C) {v w : Val α} (h : C.val v = .ok w) (hv : Good B v) : Good B w := by
  rintro r rfl
  exact hv r (hC.val v r h)

theorem Conv.Plain.goods {C : Conv κ α} (hC : Conv.Plain C) : ∀ {vs ws : List (Val α)}, convAll C vs = .ok ws →
    (∀ v ∈ vs, Good B v) → ∀ w ∈ ws, Good B w
  | [], ws, h, _ => by simp only [convAll, Except.ok.injEq] at h; subst h; simp
  | v :: vs, ws, h, hv => by
    unfold convAll at h
    cases h1 : C.val v with
    | error e => rw [h1] at h; cases h
    | ok w =>
      rw [h1] at h
      simp only at h
      cases h2 : convAll C vs with
      | error e => rw [h2] at h; cases h
      | ok ws' =>
        rw [h2] at h
        simp only [Except.ok.injEq] at h
        subst h
        intro x hx
        rcases List.mem_cons.1 hx with rfl | hx
        · exact hC.good h1 (hv v (by simp))
        · exact Conv.Plain.goods hC h2 (fun v h => hv v (by simp [h])) x hx

theorem getItem_clean {m : Mem κ α} (h : Clean B m) (hB : ∀ r, B r → r < m.lists.length) (i : Nat) (k : κ) :
    Clean B (getItem i k m).2 ∧ ∀ v, (getItem i k m).1 = .ok v → Good B v := by
  unfold getItem
  split
  · exact ⟨h, nofun⟩
  · rename_i r _
    split
    · rename_i v hv
      refine ⟨h, fun w hw => ?_⟩
      cases hw
      exact h r v (List.mem_of_getLast? hv)
    · refine ⟨h.alloc (by simp), fun w hw r' hr => ?_⟩
      simp only [Mem.alloc] at hw
      cases hw; cases hr
      intro hb; exact absurd (hB _ hb) (by omega)

theorem get_clean {m : Mem κ α} (h : Clean B m) (hB : ∀ r, B r → r < m.lists.length) (i : Nat) (k : κ) {d : Val α}
    (hd : Good B d) : Clean B (Mem.get i k d m).2 ∧ ∀ v, (Mem.get i k d m).1 = .ok v → Good B v := by
  have hg := getItem_clean h hB i k
  unfold Mem.get
  generalize getItem i k m = z at *
  obtain ⟨r, m'⟩ := z
  cases r with
  | error e =>
    by_cases he : e = .multiValueDictKeyError
    · subst he; exact ⟨hg.1, fun v hv => by cases hv; exact hd⟩
    · cases e <;> first | exact absurd rfl he | exact ⟨hg.1, fun v hv => by cases hv⟩
  | ok v =>
    simp only
    split
    · exact ⟨hg.1, fun w hw => by cases hw; exact hd⟩
    · exact ⟨hg.1, fun w hw => by cases hw; exact hg.2 _ rfl⟩

theorem getList_clean {m : Mem κ α} (h : Clean B m) (hB : ∀ r, B r → r < m.lists.length) (i : Nat) (k : κ) {d : Val α}
    (hd : Good B d) : Clean B (getList i k d m).2 ∧ ∀ v, (getList i k d m).1 = .ok v → Good B v := by
  have fresh : ∀ v, v = (Val.list m.lists.length : Val α) → Good B v := by
    rintro v rfl r hr hb
    cases hr; exact absurd (hB _ hb) (by omega)
  unfold getList
  split
  · rename_i r _
    exact ⟨h.alloc (h r), fun v hv => by simp only [Mem.alloc] at hv; cases hv; exact fresh _ rfl⟩
  · split
    · exact ⟨h.alloc (by simp), fun v hv => by simp only [Mem.alloc] at hv; cases hv; exact fresh _ rfl⟩
    · exact ⟨h, fun v hv => by cases hv; exact hd⟩

theorem setItem_clean {C : Conv κ α} (hC : Conv.Plain C) {m : Mem κ α} (h : Clean B m)
    (hB : ∀ r, B r → r < m.lists.length) (i : Nat) (k : κ) {v : Val α} (hv : Good B v) : Clean B (setItem C i k v m).2 := by
  unfold setItem
  split
  · exact h.put _ _ (good_single hv)
  · split
    · exact h
    · refine (h.alloc (good_single hv)).put _ _ (good_single ?_)
      intro r hr hb
      simp only [Mem.alloc] at hr
      cases hr; exact absurd (hB _ hb) (by omega)
  · split
    · exact h
    · split
      · exact h
      · split
        · exact h
        · rename_i w hw
          exact h.put _ _ (good_single (hC.good hw hv))

theorem setListBase_clean {m : Mem κ α} (h : Clean B m) (i : Nat) (k : κ) (p : Val α) :
    Clean B (m.setListBase i k p) := by
  unfold setListBase
  split
  · exact h.put _ _ (by simp)
  · exact h.put _ _ (h _)
  · exact h.put _ _ (good_single (good_atom _))

theorem setList_clean {C : Conv κ α} (hC : Conv.Plain C) {m : Mem κ α} (h : Clean B m) (i : Nat) (k : κ) (p : Val α) :
    Clean B (setList C i k p m).2 := by
  unfold setList
  split
  · exact setListBase_clean h _ _ _
  · split
    · exact h
    · exact setListBase_clean h _ _ _
  · split
    · exact h
    · split
      · exact h
      · have go : ∀ (vs : List (Val α)) (k : κ), (∀ v ∈ vs, Good B v) →
            Clean B (match convAll C vs with
              | .error e => ((.error e, m) : Res (Mem κ α) Unit)
              | .ok vs => (.ok (), m.put i k vs)).2 := by
          intro vs k hvs
          cases hc : convAll C vs with
          | error e => exact h
          | ok ws => exact h.put _ _ (hC.goods hc hvs)
        cases p with
        | none => exact h
        | list r => exact go _ _ (h r)
        | atom a =>
          simp only
          cases hi : C.iter a with
          | error e => exact h
          | ok vs =>
            refine go _ _ ?_
            rintro v hv r rfl
            exact absurd hv (hC.iter a vs r hi)

theorem ensureList_clean {C : Conv κ α} (hC : Conv.Plain C) {m : Mem κ α} (h : Clean B m) (i : Nat) (k : κ) (p : Val α) :
    Clean B (ensureList C i k p m).2 := by
  unfold ensureList
  split
  · exact h
  · split
    · exact setList_clean hC (h.alloc (by simp)) _ _ _
    · exact setList_clean hC h _ _ _

theorem setListDefault_clean {C : Conv κ α} (hC : Conv.Plain C) {m : Mem κ α} (h : Clean B m) (i : Nat) (k : κ)
    (p : Val α) : Clean B (setListDefault C i k p m).2 := by
  unfold setListDefault
  split
  · exact h
  · have he := ensureList_clean hC h i k p
    generalize ensureList C i k p m = z at *
    obtain ⟨r, m1⟩ := z
    cases r with
    | error e => exact he
    | ok u =>
      simp only at he ⊢
      unfold getListLive
      cases (m1.dict i).get? k with
      | none => exact he.alloc (by simp)
      | some r => exact he

theorem appendTo_clean {m : Mem κ α} (h : Clean B m) (x : Val α) {v : Val α} (hv : Good B v) :
    Clean B (appendTo x v m).2 := by
  unfold appendTo
  split
  · refine h.write fun w hw => ?_
    rcases List.mem_append.1 hw with hw | hw
    · exact h _ w hw
    · rw [List.mem_singleton] at hw; exact hw ▸ hv
  · exact h

theorem appendBase_clean {C : Conv κ α} (hC : Conv.Plain C) {m : Mem κ α} (h : Clean B m) (i : Nat) (k : κ)
    {v : Val α} (hv : Good B v) : Clean B (appendBase C i k v m).2 := by
  have he := setListDefault_clean hC h i k .none
  unfold appendBase
  generalize setListDefault C i k .none m = z at *
  obtain ⟨r, m1⟩ := z
  cases r with
  | error e => exact he
  | ok x => exact appendTo_clean he x hv

theorem appendList_clean {C : Conv κ α} (hC : Conv.Plain C) {m : Mem κ α} (h : Clean B m) (i : Nat) (k : κ)
    {v : Val α} (hv : Good B v) : Clean B (appendList C i k v m).2 := by
  unfold appendList
  split
  · exact h
  · split
    · split
      · exact h
      · split
        · exact h
        · rename_i w hw
          exact appendBase_clean hC h _ _ (hC.good hw hv)
    · exact appendBase_clean hC h _ _ hv

theorem appendAll_clean {C : Conv κ α} (hC : Conv.Plain C) (i : Nat) : ∀ (items : List (κ × Val α)) {m : Mem κ α},
    Clean B m → (∀ p ∈ items, Good B p.2) → Clean B (appendAll C i items m).2
  | [], m, h, _ => h
  | (k, v) :: items, m, h, hi => by
    have he := appendBase_clean hC h i k (hi (k, v) (by simp))
    unfold appendAll
    generalize appendBase C i k v m = z at *
    obtain ⟨r, m1⟩ := z
    cases r with
    | error e => exact he
    | ok u => exact appendAll_clean hC i items he (fun p hp => hi p (by simp [hp]))

theorem extendAll_clean {C : Conv κ α} (hC : Conv.Plain C) (i : Nat) : ∀ (items : Dict κ Nat) {m : Mem κ α},
    Clean B m → Clean B (extendAll C i items m).2
  | [], m, h => h
  | (k, r') :: items, m, h => by
    have he := setListDefault_clean hC h i k .none
    unfold extendAll
    generalize setListDefault C i k .none m = z at *
    obtain ⟨r, m1⟩ := z
    cases r with
    | error e => exact he
    | ok x =>
      cases x with
      | none => exact he
      | atom a => exact he
      | list r =>
        simp only at he ⊢
        refine extendAll_clean hC i items (he.write fun w hw => ?_)
        rcases List.mem_append.1 hw with hw | hw <;> exact he _ w hw

theorem setDefaultBase_clean {C : Conv κ α} (hC : Conv.Plain C) {m : Mem κ α} (h : Clean B m)
    (hB : ∀ r, B r → r < m.lists.length) (i : Nat) (k : κ) {v : Val α} (hv : Good B v) :
    Clean B (setDefaultBase C i k v m).2 ∧ ∀ x, (setDefaultBase C i k v m).1 = .ok x → Good B x := by
  have he : Clean B (if m.contains i k then (.ok (), m) else setItem C i k v m).2 := by
    split
    · exact h
    · exact setItem_clean hC h hB i k hv
  have hl : m.lists.length ≤ (if m.contains i k then (.ok (), m) else setItem C i k v m).2.lists.length := by
    split
    · exact Nat.le_refl _
    · unfold setItem
      cases (m.obj i).cls with
      | plain => simp [Mem.put, Mem.alloc, Mem.setDict]
      | immutable =>
        cases m.assertMutable i with
        | error e => exact Nat.le_refl _
        | ok u => simp [Mem.put, Mem.alloc, Mem.setDict]
      | query =>
        cases m.assertMutable i with
        | error e => exact Nat.le_refl _
        | ok u =>
          cases C.key k with
          | error e => exact Nat.le_refl _
          | ok k => cases C.val v <;> simp [Mem.put, Mem.alloc, Mem.setDict]
  unfold setDefaultBase
  generalize (if m.contains i k then (.ok (), m) else setItem C i k v m) = z at *
  obtain ⟨r, m1⟩ := z
  cases r with
  | error e => exact ⟨he, nofun⟩
  | ok u =>
    simp only at he hl ⊢
    have hg := getItem_clean he (fun r hr => Nat.lt_of_lt_of_le (hB r hr) hl) i k
    generalize getItem i k m1 = z at *
    obtain ⟨r, m2⟩ := z
    cases r with
    | error e => exact ⟨hg.1, nofun⟩
    | ok x =>
      refine ⟨hg.1, fun y hy => ?_⟩
      simp only at hy
      cases hy
      split
      · exact good_none
      · exact hg.2 _ rfl

theorem setDefault_clean {C : Conv κ α} (hC : Conv.Plain C) {m : Mem κ α} (h : Clean B m)
    (hB : ∀ r, B r → r < m.lists.length) (i : Nat) (k : κ) {v : Val α} (hv : Good B v) :
    Clean B (setDefault C i k v m).2 ∧ ∀ x, (setDefault C i k v m).1 = .ok x → Good B x := by
  unfold setDefault
  split
  · exact ⟨h, nofun⟩
  · split
    · split
      · exact ⟨h, nofun⟩
      · split
        · exact ⟨h, nofun⟩
        · rename_i w hw
          exact setDefaultBase_clean hC h hB _ _ (hC.good hw hv)
    · exact setDefaultBase_clean hC h hB _ _ hv

theorem pop_clean {m : Mem κ α} (h : Clean B m) (i : Nat) (k : κ) (d : Option (Val α)) : Clean B (pop i k d m).2 := by
  unfold pop
  split
  · exact h
  · split
    · exact h
    · split <;> exact h

theorem popItem_clean {m : Mem κ α} (h : Clean B m) (i n : Nat) : Clean B (popItem i n m).2 := by
  unfold popItem
  split
  · exact h
  · split <;> exact h

theorem update_clean {C : Conv κ α} (hC : Conv.Plain C) {m : Mem κ α} (h : Clean B m) (i : Nat) (arg : UpdArg κ α)
    (kw : List (κ × Val α)) (hk : ∀ p ∈ kw, Good B p.2) (ha : ∀ items, arg = .mapping items → ∀ p ∈ items, Good B p.2) :
    Clean B (update C i arg kw m).2 := by
  unfold update
  split
  · split <;> exact h
  · have he : Clean B (updateArg C i arg m).2 := by
      unfold updateArg
      cases arg with
      | absent => exact h
      | other => exact h
      | mvd j => exact extendAll_clean hC i _ h
      | mapping items =>
        have := appendAll_clean hC i items h (ha items rfl)
        simp only
        generalize appendAll C i items m = z at *
        obtain ⟨r, m1⟩ := z
        cases r with
        | ok u => exact this
        | error e => cases e <;> exact this
    generalize updateArg C i arg m = z at *
    obtain ⟨r, m1⟩ := z
    cases r with
    | error e => exact he
    | ok u => exact appendAll_clean hC i kw he hk

theorem itemsLoop_clean (i : Nat) : ∀ (ks : List κ) {m : Mem κ α}, Clean B m → (∀ r, B r → r < m.lists.length) →
    Clean B (itemsLoop i ks m).2 ∧ ∀ l, (itemsLoop i ks m).1 = .ok l → ∀ p ∈ l, Good B p.2
  | [], m, h, _ => ⟨h, fun l hl => by cases hl; simp⟩
  | k :: ks, m, h, hB => by
    have hg := getItem_clean h hB i k
    have hl : m.lists.length ≤ (getItem i k m).2.lists.length := by
      unfold getItem
      split
      · exact Nat.le_refl _
      · split
        · exact Nat.le_refl _
        · simp [Mem.alloc]
    unfold itemsLoop
    generalize getItem i k m = z at *
    obtain ⟨r, m1⟩ := z
    cases r with
    | error e => exact ⟨hg.1, nofun⟩
    | ok v =>
      simp only at hg hl ⊢
      have ih := itemsLoop_clean i ks hg.1 (fun r hr => Nat.lt_of_lt_of_le (hB r hr) hl)
      generalize itemsLoop i ks m1 = z at *
      obtain ⟨r, m2⟩ := z
      cases r with
      | error e => exact ⟨ih.1, nofun⟩
      | ok l =>
        refine ⟨ih.1, fun l' hl' p hp => ?_⟩
        simp only at hl'
        cases hl'
        rcases List.mem_cons.1 hp with rfl | hp
        · exact hg.2 _ rfl
        · exact ih.2 _ rfl p hp

theorem copyItems_clean (c : Nat) : ∀ (d : Dict κ Nat) {m : Mem κ α}, Clean B m → Clean B (copyItems c d m)
  | [], m, h => h
  | (k, r) :: t, m, h => by
    unfold copyItems
    exact copyItems_clean c t (h.put _ _ (h r))

end Mem
end Verif
