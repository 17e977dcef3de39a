import Verif.Model.DeepCopy
import Verif.Props.MVDict
/-!
# Deep copies (C97)
-/

namespace Verif
namespace Spec
variable {κ α : Type} [DecidableEq κ]

/-- Every address inside a list is that of a list. -/
def Closed (m : Mem κ α) : Prop := ∀ r s, Val.list s ∈ m.elems r → s < m.lists.length

/-- The lists that can be reached from the dictionary `i`. -/
inductive Reach (m : Mem κ α) (i : Nat) : Nat → Prop where
  | top {k r} (h : (k, r) ∈ m.dict i) : Reach m i r
  | step {r s} (h : Reach m i r) (hs : Val.list s ∈ m.elems r) : Reach m i s

/-- The value with every list `r` replaced by `f r`. -/
def rename (f : Nat → Nat) : Val α → Val α
  | .list r => .list (f r)
  | v => v

/-- The dictionary `c` of `m'` is a copy of the dictionary `i` of `m` down to the innermost lists, and `f r` is
the copy of the list `r`: same keys, same elements, and two lists are one in the copy exactly if they were one. -/
structure DeepCopyOf (m m' : Mem κ α) (i c : Nat) (f : Nat → Nat) : Prop where
  dict : m'.dict c = (m.dict i).map fun p => (p.1, f p.2)
  elems : ∀ r, Reach m i r → m'.elems (f r) = (m.elems r).map (rename f)
  inj : ∀ r s, Reach m i r → Reach m i s → f r = f s → r = s

end Spec

open Spec
namespace Mem
variable {κ α : Type} [DecidableEq κ]

/-- The function a memo stands for. -/
def memoFun (d : Dict Nat Nat) (r : Nat) : Nat := (d.get? r).getD 0

/-- Nothing that existed is touched, the memo only grows and is injective, from old lists to new ones. -/
structure DInv (m0 : Mem κ α) (st : DState κ α) : Prop where
  len : m0.lists.length ≤ st.2.lists.length
  old : ∀ r, r < m0.lists.length → st.2.elems r = m0.elems r
  rng : ∀ r x, st.1.get? r = some x → r < m0.lists.length ∧ m0.lists.length ≤ x ∧ x < st.2.lists.length
  inj : ∀ r s x, st.1.get? r = some x → st.1.get? s = some x → r = s

/-- The list `x` is a finished copy of `r`. -/
def Copied (m0 : Mem κ α) (st : DState κ α) (r x : Nat) : Prop :=
  st.2.elems x = (m0.elems r).map (rename (memoFun st.1)) ∧
  ∀ s, Val.list s ∈ m0.elems r → (st.1.get? s).isSome

/-- A step: all lists but `y` stay as they are, and what is new in the memo is new in memory and finished. -/
structure DStep (m0 : Mem κ α) (y : Option Nat) (st st' : DState κ α) : Prop where
  inv : DInv m0 st'
  ext : ∀ r x, st.1.get? r = some x → st'.1.get? r = some x
  len : st.2.lists.length ≤ st'.2.lists.length
  frame : ∀ x, x < st.2.lists.length → y ≠ some x → st'.2.elems x = st.2.elems x
  fin : ∀ r x, st.1.get? r = none → st'.1.get? r = some x → st.2.lists.length ≤ x ∧ Copied m0 st' r x
  dicts : st'.2.dicts = st.2.dicts

theorem memoFun_ext {d d' : Dict Nat Nat} (h : ∀ r x, d.get? r = some x → d'.get? r = some x) {r : Nat}
    (hr : (d.get? r).isSome) : memoFun d' r = memoFun d r := by
  obtain ⟨x, hx⟩ := Option.isSome_iff_exists.1 hr
  simp [memoFun, hx, h r x hx]

theorem rename_congr {f g : Nat → Nat} (l : List (Val α)) (h : ∀ s, Val.list s ∈ l → f s = g s) :
    l.map (rename f) = l.map (rename g) := by
  apply List.map_congr_left
  intro v hv
  cases v with
  | list s => simp [rename, h s hv]
  | none => rfl
  | atom a => rfl

theorem Copied.ext {m0 : Mem κ α} {st st' : DState κ α} {r x : Nat} (h : Copied m0 st r x)
    (he : ∀ r x, st.1.get? r = some x → st'.1.get? r = some x) (hx : st'.2.elems x = st.2.elems x) :
    Copied m0 st' r x := by
  refine ⟨?_, fun s hs => ?_⟩
  · rw [hx, h.1]
    exact rename_congr _ fun s hs => (memoFun_ext he (h.2 s hs)).symm
  · obtain ⟨y, hy⟩ := Option.isSome_iff_exists.1 (h.2 s hs)
    simp [he s y hy]

/-- What copying one value achieves. -/
def DeepOk (m0 : Mem κ α) (f : Val α → DState κ α → Res (DState κ α) (Val α)) : Prop :=
  ∀ v st v' st', (∀ s, v = .list s → s < m0.lists.length) → DInv m0 st → f v st = (.ok v', st') →
    DStep m0 none st st' ∧ v' = rename (memoFun st'.1) v ∧ ∀ s, v = .list s → (st'.1.get? s).isSome

theorem deepElems_ok {m0 : Mem κ α} {f : Val α → DState κ α → Res (DState κ α) (Val α)} (hf : DeepOk m0 f)
    (y : Nat) (hy : m0.lists.length ≤ y) (vs : List (Val α)) : ∀ (st st' : DState κ α), y < st.2.lists.length →
    (∀ s, Val.list s ∈ vs → s < m0.lists.length) → DInv m0 st → deepElems f y vs st = (.ok (), st') →
    DStep m0 (some y) st st' ∧ st'.2.elems y = st.2.elems y ++ vs.map (rename (memoFun st'.1)) ∧
    ∀ s, Val.list s ∈ vs → (st'.1.get? s).isSome := by
  induction vs with
  | nil =>
    intro st st' _ _ hi h
    simp only [deepElems] at h
    cases h
    exact ⟨⟨hi, fun _ _ h => h, Nat.le_refl _, fun _ _ _ => rfl, fun r x h h' => by simp [h] at h', rfl⟩, by simp, by simp⟩
  | cons v vs ih =>
    intro st st' hlt hv hi h
    unfold deepElems at h
    split at h
    · cases h
    · rename_i v1 st1 h1
      obtain ⟨s1, e1, i1⟩ := hf v st v1 st1 (fun s hs => hv s (hs ▸ List.mem_cons_self)) hi h1
      have hlt1 : y < st1.2.lists.length := Nat.lt_of_lt_of_le hlt s1.len
      have hw : ∀ x, x ≠ y → (st1.2.write y (st1.2.elems y ++ [v1])).elems x = st1.2.elems x := by
        intro x hx; rw [elems_write, if_neg (by rintro ⟨rfl, _⟩; exact hx rfl)]
      have hwl : (st1.2.write y (st1.2.elems y ++ [v1])).lists.length = st1.2.lists.length := by simp [write]
      have hi2 : DInv m0 (st1.1, st1.2.write y (st1.2.elems y ++ [v1])) := by
        refine ⟨by rw [hwl]; exact s1.inv.len, fun r hr => ?_, fun r x hx => ?_, s1.inv.inj⟩
        · simp only; rw [hw r (by omega)]; exact s1.inv.old r hr
        · simp only; rw [hwl]; exact s1.inv.rng r x hx
      obtain ⟨s2, e2, i2⟩ := ih (st1.1, st1.2.write y (st1.2.elems y ++ [v1])) st' (by simp only; rw [hwl]; exact hlt1)
        (fun s hs => hv s (List.mem_cons_of_mem _ hs)) hi2 h
      refine ⟨⟨s2.inv, fun r x hx => s2.ext r x (s1.ext r x hx), ?_, fun x hx hxy => ?_, fun r x h0 hx => ?_, ?_⟩, ?_, ?_⟩
      · have := s2.len; simp only at this; rw [hwl] at this; exact Nat.le_trans s1.len this
      · have hxy' : x ≠ y := fun h => hxy (h ▸ rfl)
        have := s2.frame x (by simp only; rw [hwl]; exact Nat.lt_of_lt_of_le hx s1.len) hxy
        rw [this]; simp only; rw [hw x hxy']; exact s1.frame x hx (by simp)
      · cases h1' : st1.1.get? r with
        | none =>
          obtain ⟨hn, hc⟩ := s2.fin r x h1' hx
          simp only [hwl] at hn
          exact ⟨Nat.le_trans s1.len hn, hc⟩
        | some x1 =>
          have : x1 = x := by have := s2.ext r x1 h1'; rw [hx] at this; exact (Option.some.inj this).symm
          subst this
          obtain ⟨hn, hc⟩ := s1.fin r x1 h0 h1'
          have hr := s1.inv.rng r x1 h1'
          have hxy : x1 ≠ y := by omega
          refine ⟨hn, (hc.ext (st' := (st1.1, st1.2.write y (st1.2.elems y ++ [v1]))) (fun _ _ h => h) (hw x1 hxy)).ext s2.ext ?_⟩
          exact s2.frame x1 (by simp only; rw [hwl]; exact hr.2.2) (by simpa using Ne.symm hxy)
      · rw [s2.dicts]; exact s1.dicts
      · rw [e2]
        simp only
        rw [elems_write, if_pos ⟨rfl, hlt1⟩, s1.frame y hlt (by simp), e1]
        simp only [List.map_cons, List.append_assoc, List.singleton_append]
        congr 2
        cases v with
        | list s => simp only [rename]; rw [memoFun_ext s2.ext (i1 s rfl)]
        | none => rfl
        | atom a => rfl
      · intro s hs
        rcases List.mem_cons.1 hs with h | h
        · obtain ⟨z, hz⟩ := Option.isSome_iff_exists.1 (i1 s h.symm)
          simp [s2.ext s z hz]
        · exact i2 s h

theorem DInv.alloc {m0 : Mem κ α} {st : DState κ α} (hi : DInv m0 st) {r : Nat} (hr : r < m0.lists.length) :
    DInv m0 (st.1.set r st.2.lists.length, (st.2.alloc []).2) := by
  have hl : (st.2.alloc ([] : List (Val α))).2.lists.length = st.2.lists.length + 1 := by simp [Mem.alloc]
  refine ⟨by simp only; rw [hl]; exact Nat.le_succ_of_le hi.len, fun x hx => ?_, fun x y hxy => ?_, fun x y z hx hy => ?_⟩
  · simp only; rw [elems_alloc _ _ (Nat.lt_of_lt_of_le hx hi.len)]; exact hi.old x hx
  · simp only [Dict.get?_set] at hxy
    simp only; rw [hl]
    split at hxy
    · rename_i h; subst h; cases hxy; exact ⟨hr, hi.len, by omega⟩
    · have := hi.rng x y hxy; omega
  · simp only [Dict.get?_set] at hx hy
    split at hx <;> split at hy
    · rename_i h1 h2; exact h1.symm.trans h2
    · cases hx; have := hi.rng _ _ hy; omega
    · cases hy; have := hi.rng _ _ hx; omega
    · exact hi.inj x y z hx hy

theorem deepVal_ok {m0 : Mem κ α} (hc : Closed m0) : ∀ depth, DeepOk m0 (deepVal (κ := κ) (α := α) depth) := by
  intro depth
  induction depth with
  | zero => intro v st v' st' _ _ h; simp [deepVal] at h
  | succ depth ih =>
    intro v st v' st' hv hi h
    have triv : ∀ w : Val α, (∀ s, w ≠ .list s) → deepVal (depth + 1) w st = (.ok v', st') → v' = w ∧ st' = st := by
      intro w hw h
      cases w with
      | list s => exact absurd rfl (hw s)
      | none => simp only [deepVal] at h; cases h; exact ⟨rfl, rfl⟩
      | atom a => simp only [deepVal] at h; cases h; exact ⟨rfl, rfl⟩
    have same : DStep m0 none st st :=
      ⟨hi, fun _ _ h => h, Nat.le_refl _, fun _ _ _ => rfl, fun r x h h' => by simp [h] at h', rfl⟩
    cases v with
    | none => obtain ⟨rfl, rfl⟩ := triv _ (by simp) h; exact ⟨same, rfl, by simp⟩
    | atom a => obtain ⟨rfl, rfl⟩ := triv _ (by simp) h; exact ⟨same, rfl, by simp⟩
    | list r =>
      unfold deepVal at h
      simp only at h
      cases hg : st.1.get? r with
      | some r' =>
        simp only [hg] at h
        cases h
        refine ⟨same, by simp [rename, memoFun, hg], ?_⟩
        rintro s h; cases h; simp [hg]
      | none =>
        simp only [hg] at h
        have hr : r < m0.lists.length := hv r rfl
        have hl : (st.2.alloc ([] : List (Val α))).2.lists.length = st.2.lists.length + 1 := by simp [alloc]
        have hi1 := hi.alloc hr
        have he : st.2.elems r = m0.elems r := hi.old r hr
        split at h
        · cases h
        · rename_i st2 h2
          cases h
          rw [he] at h2
          obtain ⟨s2, e2, i2⟩ := deepElems_ok ih st.2.lists.length hi.len (m0.elems r)
            (st.1.set r st.2.lists.length, (st.2.alloc []).2) st' (by simp only; rw [hl]; omega) (fun s hs => hc r s hs) hi1 h2
          have hself : st'.1.get? r = some st.2.lists.length := s2.ext r _ (by simp [Dict.get?_set])
          refine ⟨⟨s2.inv, fun x y hxy => ?_, ?_, fun x hx _ => ?_, fun x y h0 hxy => ?_, ?_⟩, ?_, ?_⟩
          · refine s2.ext x y ?_
            simp only [Dict.get?_set]
            rw [if_neg (by rintro rfl; rw [hg] at hxy; cases hxy)]; exact hxy
          · have := s2.len; simp only at this; rw [hl] at this; omega
          · rw [s2.frame x (by simp only; rw [hl]; omega) (by simp; omega)]
            simp only; rw [elems_alloc _ _ hx]
          · by_cases hxr : r = x
            · subst hxr
              rw [hself] at hxy; cases hxy
              refine ⟨Nat.le_refl _, ?_, i2⟩
              rw [e2]; simp only; rw [elems_alloc_new]; rfl
            · obtain ⟨hn, hcp⟩ := s2.fin x y (by simp only [Dict.get?_set]; rw [if_neg hxr]; exact h0) hxy
              simp only [hl] at hn
              exact ⟨by omega, hcp⟩
          · rw [s2.dicts]; rfl
          · simp [rename, memoFun, hself]
          · rintro s h; cases h; simp [hself]

/-- The lists not copied yet. -/
def todo (n : Nat) (d : Dict Nat Nat) : Nat := ((List.range n).filter fun r => (d.get? r).isNone).length

theorem todo_ext (n : Nat) {d d' : Dict Nat Nat} (h : ∀ r x, d.get? r = some x → d'.get? r = some x) :
    todo n d' ≤ todo n d := by
  unfold todo
  apply List.Sublist.length_le
  apply List.monotone_filter_right
  intro r hr
  cases hd : d.get? r with
  | none => rfl
  | some x => rw [h r x hd] at hr; cases hr

theorem todo_set {n : Nat} {d : Dict Nat Nat} {r : Nat} (hr : r < n) (h : d.get? r = none) (x : Nat) :
    todo n (d.set r x) < todo n d := by
  unfold todo
  have : ((List.range n).filter fun s => ((d.set r x).get? s).isNone) =
      ((List.range n).filter fun s => (d.get? s).isNone).filter (fun s => s ≠ r) := by
    rw [List.filter_filter]
    apply List.filter_congr
    intro s _
    rw [Dict.get?_set]
    by_cases hs : r = s
    · simp [hs]
    · simp [hs, Ne.symm hs]
  rw [this]
  apply List.length_filter_lt_length_iff_exists.2
  exact ⟨r, by simp [hr, h], by simp⟩

theorem deepElems_total {m0 : Mem κ α} {f : Val α → DState κ α → Res (DState κ α) (Val α)} (hf : DeepOk m0 f)
    (depth : Nat) (ht : ∀ v (st : DState κ α), (∀ s, v = .list s → s < m0.lists.length) → DInv m0 st →
      todo m0.lists.length st.1 < depth → ∃ v' st', f v st = (.ok v', st'))
    (y : Nat) (hy : m0.lists.length ≤ y) (vs : List (Val α)) : ∀ (st : DState κ α), y < st.2.lists.length →
    (∀ s, Val.list s ∈ vs → s < m0.lists.length) → DInv m0 st → todo m0.lists.length st.1 < depth →
    ∃ st', deepElems f y vs st = (.ok (), st') := by
  induction vs with
  | nil => intro st _ _ _ _; exact ⟨st, rfl⟩
  | cons v vs ih =>
    intro st hlt hv hi hd
    have hvv : ∀ s, v = .list s → s < m0.lists.length := fun s hs => hv s (hs ▸ List.mem_cons_self)
    obtain ⟨v1, st1, h1⟩ := ht v st hvv hi hd
    obtain ⟨s1, -, -⟩ := hf v st v1 st1 hvv hi h1
    have hwl : (st1.2.write y (st1.2.elems y ++ [v1])).lists.length = st1.2.lists.length := by simp [write]
    unfold deepElems
    rw [h1]
    refine ih _ (by simp only; rw [hwl]; exact Nat.lt_of_lt_of_le hlt s1.len) (fun s hs => hv s (List.mem_cons_of_mem _ hs))
      ⟨by simp only; rw [hwl]; exact s1.inv.len, fun r hr => ?_, fun r x hx => ?_, s1.inv.inj⟩
      (Nat.lt_of_le_of_lt (todo_ext _ s1.ext) hd)
    · simp only; rw [elems_write, if_neg (by omega)]; exact s1.inv.old r hr
    · simp only; rw [hwl]; exact s1.inv.rng r x hx

/-- Copying one value succeeds if the interpreter allows as many nested calls as there are lists to copy. -/
theorem deepVal_total {m0 : Mem κ α} (hc : Closed m0) : ∀ depth v (st : DState κ α),
    (∀ s, v = .list s → s < m0.lists.length) → DInv m0 st → todo m0.lists.length st.1 < depth →
    ∃ v' st', deepVal depth v st = (.ok v', st') := by
  intro depth
  induction depth with
  | zero => intro v st _ _ h; omega
  | succ depth ih =>
    intro v st hv hi ht
    cases v with
    | none => exact ⟨_, _, rfl⟩
    | atom a => exact ⟨_, _, rfl⟩
    | list r =>
      have hr : r < m0.lists.length := hv r rfl
      unfold deepVal
      simp only
      cases hg : st.1.get? r with
      | some r' => exact ⟨_, _, rfl⟩
      | none =>
        obtain ⟨st', h⟩ := deepElems_total (deepVal_ok hc depth) depth ih st.2.lists.length hi.len (st.2.elems r)
          (st.1.set r st.2.lists.length, (st.2.alloc []).2) (by simp [alloc])
          (fun s hs => hc r s (by rw [← hi.old r hr]; exact hs)) (hi.alloc hr)
          (by have := todo_set hr hg st.2.lists.length; simp only; omega)
        simp only [h]
        exact ⟨_, _, rfl⟩

theorem dict_set_new {d : Dict κ Nat} {k : κ} (h : k ∉ d.keys) (x : Nat) : d.set k x = d ++ [(k, x)] := by
  induction d with
  | nil => rfl
  | cons p t ih =>
    obtain ⟨a, b⟩ := p
    simp only [Dict.keys, List.map_cons, List.mem_cons, not_or] at h
    unfold Dict.set
    rw [if_neg (Ne.symm h.1), ih h.2]
    rfl

theorem setDict_dict_self (m : Mem κ α) {c : Nat} (hc : c < m.dicts.length) (d : Dict κ Nat) : (m.setDict c d).dict c = d := by
  rw [dict_setDict, if_pos ⟨rfl, hc⟩]

/-- The loop over the keys. -/
theorem deepItems_ok {m0 : Mem κ α} (hc : Closed m0) (depth c : Nat) (items : Dict κ Nat) :
    ∀ (st st' : DState κ α), c < st.2.dicts.length → (∀ p ∈ items, p.2 < m0.lists.length) →
    ((st.2.dict c).keys ++ items.keys).Nodup → DInv m0 st →
    (∀ r x, st.1.get? r = some x → Copied m0 st r x) →
    deepItems depth c items st = (.ok (), st') →
    DInv m0 st' ∧ (∀ r x, st.1.get? r = some x → st'.1.get? r = some x) ∧
    (∀ r x, st'.1.get? r = some x → Copied m0 st' r x) ∧
    st'.2.dict c = st.2.dict c ++ items.map (fun p => (p.1, memoFun st'.1 p.2)) ∧
    (∀ p ∈ items, (st'.1.get? p.2).isSome) ∧ (∀ j, j ≠ c → st'.2.obj j = st.2.obj j) ∧
    (st'.2.obj c).cls = (st.2.obj c).cls ∧ (st'.2.obj c).mutable = (st.2.obj c).mutable ∧
    st'.2.dicts.length = st.2.dicts.length := by
  induction items with
  | nil =>
    intro st st' _ _ _ hi hcp h
    simp only [deepItems] at h
    cases h
    exact ⟨hi, fun _ _ h => h, hcp, by simp, by simp, fun _ _ => rfl, rfl, rfl, rfl⟩
  | cons p t ih =>
    obtain ⟨k, r⟩ := p
    intro st st' hlt hv hn hi hcp h
    unfold deepItems at h
    split at h
    · rename_i r' st1 h1
      have hr : r < m0.lists.length := hv (k, r) List.mem_cons_self
      obtain ⟨s1, e1, i1⟩ := deepVal_ok hc depth _ st _ st1 (by rintro s h; cases h; exact hr) hi h1
      simp only [rename, Val.list.injEq] at e1
      have hd : st1.2.dict c = st.2.dict c := by unfold Mem.dict Mem.obj; rw [s1.dicts]
      have hcp1 : ∀ r x, st1.1.get? r = some x → Copied m0 st1 r x := by
        intro r x hx
        cases h0 : st.1.get? r with
        | none => exact (s1.fin r x h0 hx).2
        | some x0 =>
          have : x0 = x := by have := s1.ext r x0 h0; rw [hx] at this; exact (Option.some.inj this).symm
          subst this
          exact (hcp r x0 h0).ext s1.ext (s1.frame x0 (hi.rng r x0 h0).2.2 (by simp))
      have hk : k ∉ (st.2.dict c).keys := by
        intro hm
        have := (List.nodup_append.1 hn).2.2 k hm k (by simp [Dict.keys])
        exact this rfl
      have hlt1 : c < st1.2.dicts.length := by rw [s1.dicts]; exact hlt
      have hset : (st1.2.setDict c ((st1.2.dict c).set k r')).dict c = st.2.dict c ++ [(k, r')] := by
        rw [setDict_dict_self _ hlt1, hd, dict_set_new hk]
      obtain ⟨a1, a2, a3, a4, a5, a6, a7, a8, a9⟩ := ih (st1.1, st1.2.setDict c ((st1.2.dict c).set k r')) st'
        (by simp [setDict]; exact hlt1) (fun p hp => hv p (List.mem_cons_of_mem _ hp))
        (by
          simp only; rw [hset]
          simpa [Dict.keys] using hn)
        ⟨s1.inv.len, s1.inv.old, s1.inv.rng, s1.inv.inj⟩ hcp1 h
      have hobj : ∀ j, st1.2.obj j = st.2.obj j := fun j => by unfold Mem.obj; rw [s1.dicts]
      refine ⟨a1, fun r x hx => a2 r x (s1.ext r x hx), a3, ?_, ?_, fun j hj => ?_, ?_, ?_, ?_⟩
      · rw [a4]; simp only; rw [hset, e1]
        simp only [List.map_cons, List.append_assoc, List.singleton_append]
        rw [memoFun_ext a2 (i1 r rfl)]
      · intro p hp
        rcases List.mem_cons.1 hp with rfl | hp
        · obtain ⟨z, hz⟩ := Option.isSome_iff_exists.1 (i1 r rfl)
          simp [a2 r z hz]
        · exact a5 p hp
      · rw [a6 j hj, ← hobj j]
        simp only [setDict, Mem.obj]
        rw [List.getElem?_set_ne (Ne.symm hj)]
      · rw [a7, ← hobj c]; exact (obj_setDict ..).1
      · rw [a8, ← hobj c]; exact (obj_setDict ..).2
      · rw [a9]; simp [setDict, s1.dicts]
    · cases h
    · cases h

theorem deepItems_total {m0 : Mem κ α} (hc : Closed m0) (depth c : Nat) (hd : m0.lists.length < depth) (items : Dict κ Nat) :
    ∀ (st : DState κ α), (∀ p ∈ items, p.2 < m0.lists.length) → DInv m0 st →
    ∃ st', deepItems depth c items st = (.ok (), st') := by
  induction items with
  | nil => intro st _ _; exact ⟨st, rfl⟩
  | cons p t ih =>
    obtain ⟨k, r⟩ := p
    intro st hv hi
    have hr : ∀ s, (Val.list r : Val α) = .list s → s < m0.lists.length := by
      rintro s h; cases h; exact hv (k, r) List.mem_cons_self
    have htd : todo m0.lists.length st.1 < depth := by
      refine Nat.lt_of_le_of_lt ?_ hd
      unfold todo
      exact Nat.le_trans (List.length_filter_le _ _) (by simp)
    obtain ⟨v', st1, h1⟩ := deepVal_total hc depth (.list r) st hr hi htd
    obtain ⟨s1, e1, -⟩ := deepVal_ok hc depth _ st v' st1 hr hi h1
    simp only [rename] at e1
    subst e1
    unfold deepItems
    simp only [h1]
    exact ih _ (fun p hp => hv p (List.mem_cons_of_mem _ hp)) ⟨s1.inv.len, s1.inv.old, s1.inv.rng, s1.inv.inj⟩

/-- C97.  A deep copy is a new dictionary of the same class that equals the original down to the innermost
lists, with the same sharing.  Every list reachable from it is new, and nothing that existed before is changed. -/
theorem _root_.Verif.C97_deepcopy (m : Mem κ α) (wf : m.WF) (hc : Closed m) (depth i c : Nat) (m' : Mem κ α)
    (h : deepCopy depth i m = (.ok c, m')) :
    (∃ f, DeepCopyOf m m' i c f) ∧ m.dicts.length ≤ c ∧ (m'.obj c).cls = (m.obj i).cls ∧
    (∀ r, Reach m' c r → m.lists.length ≤ r) ∧
    (∀ r, r < m.lists.length → m'.elems r = m.elems r) ∧ (∀ j, j < m.dicts.length → m'.obj j = m.obj j) := by
  unfold deepCopy at h
  split at h
  · cases h
  split at h
  · cases h
  rename_i st hst
  cases h
  have hobj : ∀ j, j ≠ m.dicts.length → (m.newDict (m.obj i).cls).obj j = m.obj j := by
    intro j hj
    unfold Mem.obj newDict
    simp only
    rcases Nat.lt_or_ge j m.dicts.length with h | h
    · rw [List.getElem?_append_left h]
    · rw [List.getElem?_append_right h, List.getElem?_eq_none (by simp; omega), List.getElem?_eq_none h]
  have hnew : (m.newDict (m.obj i).cls).obj m.dicts.length = { cls := (m.obj i).cls } := by
    simp [Mem.obj, newDict]
  have hc0 : Closed (m.newDict (m.obj i).cls) := hc
  have hz : (m.newDict (m.obj i).cls).dict m.dicts.length = [] := by unfold Mem.dict; rw [hnew]
  obtain ⟨a1, -, a3, a4, a5, a6, a7, -, -⟩ := deepItems_ok (m0 := m.newDict (m.obj i).cls) hc0 depth m.dicts.length (m.dict i)
    ([], m.newDict (m.obj i).cls) st (by simp [newDict])
    (fun p hp => wf.valid i p.1 p.2 (Dict.get?_of_mem (wf.nodup i) hp))
    (by simp only; rw [hz]; exact wf.nodup i)
    ⟨Nat.le_refl _, fun _ _ => rfl, fun r x h => (by cases h), fun r s x h => (by cases h)⟩ (fun r x h => (by cases h)) hst
  simp only [hz, List.nil_append] at a4
  have hmem : ∀ r, Reach m i r → (st.1.get? r).isSome := by
    intro r hr
    induction hr with
    | top h => exact a5 _ h
    | step _ hs ih =>
      obtain ⟨x, hx⟩ := Option.isSome_iff_exists.1 ih
      exact (a3 _ x hx).2 _ hs
  have hfun : ∀ r, Reach m i r → st.1.get? r = some (memoFun st.1 r) := by
    intro r hr
    obtain ⟨x, hx⟩ := Option.isSome_iff_exists.1 (hmem r hr)
    simp [memoFun, hx]
  have hdc : DeepCopyOf m st.2 i m.dicts.length (memoFun st.1) := by
    refine ⟨a4, fun r hr => (a3 r _ (hfun r hr)).1, fun r s hr hs h => ?_⟩
    exact a1.inj r s _ (hfun r hr) (by rw [h]; exact hfun s hs)
  have himg : ∀ s, Reach st.2 m.dicts.length s → ∃ r, Reach m i r ∧ s = memoFun st.1 r := by
    intro s hs
    induction hs with
    | top h =>
      rw [a4] at h
      obtain ⟨p, hp, he⟩ := List.mem_map.1 h
      cases he
      exact ⟨p.2, .top (k := p.1) hp, rfl⟩
    | step _ hs ih =>
      obtain ⟨r, hr, rfl⟩ := ih
      rw [hdc.elems r hr] at hs
      obtain ⟨v, hv, he⟩ := List.mem_map.1 hs
      cases v with
      | none => cases he
      | atom a => cases he
      | list s => simp only [rename, Val.list.injEq] at he; exact ⟨s, .step hr hv, he.symm⟩
  refine ⟨⟨_, hdc⟩, Nat.le_refl _, ?_, fun r hr => ?_, a1.old, fun j hj => ?_⟩
  · rw [a7]; simp only; rw [hnew]
  · obtain ⟨s, hs, rfl⟩ := himg r hr
    exact (a1.rng s _ (hfun s hs)).2.1
  · rw [a6 j (by omega)]; exact hobj j (by omega)

/-- C97.  It fails only if the interpreter allows fewer nested calls than there are lists (and always for a
`QueryDict`). -/
theorem _root_.Verif.C97_total (m : Mem κ α) (wf : m.WF) (hc : Closed m) (depth i : Nat) (hd : m.lists.length < depth) :
    (deepCopy depth i m).1 = if (m.obj i).cls = .query then .error .attributeError else .ok m.dicts.length := by
  unfold deepCopy
  split
  · rfl
  · obtain ⟨st, h⟩ := deepItems_total (m0 := m.newDict (m.obj i).cls) hc depth m.dicts.length hd (m.dict i)
      ([], m.newDict (m.obj i).cls) (fun p hp => wf.valid i p.1 p.2 (Dict.get?_of_mem (wf.nodup i) hp))
      ⟨Nat.le_refl _, fun _ _ => rfl, fun r x h => (by cases h), fun r s x h => (by cases h)⟩
    rw [h]

/-- Two keys hold lists that share an inner list, which contains the first of them. -/
def knotted : Mem Bytes Bytes where
  lists := [[.list 2], [.list 2, .atom b!"x"], [.list 0, .none]]
  dicts := [{ data := [(b!"a", 0), (b!"b", 1)] }]

example : knotted.WF ∧ Closed knotted := by
  refine ⟨⟨fun i => ?_, fun i k r h => ?_, fun i k i' k' r h h' => ?_⟩, fun r s h => ?_⟩
  · match i with
    | 0 => decide +kernel
    | i + 1 => simp [Mem.dict, Mem.obj, knotted, Dict.keys]
  · match i with
    | 0 =>
      simp only [Mem.dict, Mem.obj, knotted, List.getElem?_cons_zero, Option.getD_some, Dict.get?] at h
      simp only [knotted, List.length_cons, List.length_nil]
      split at h
      · cases h; decide
      · split at h <;> cases h; decide
    | i + 1 => simp [Mem.dict, Mem.obj, knotted, Dict.get?] at h
  · match i, i' with
    | 0, 0 =>
      simp only [Mem.dict, Mem.obj, knotted, List.getElem?_cons_zero, Option.getD_some, Dict.get?] at h h'
      refine ⟨rfl, ?_⟩
      split at h <;> split at h'
      · rename_i a b; exact a.symm.trans b
      · split at h' <;> cases h <;> cases h'
      · split at h <;> cases h <;> cases h'
      · split at h <;> split at h'
        · rename_i a b; exact a.symm.trans b
        all_goals simp_all
    | i + 1, _ => simp [Mem.dict, Mem.obj, knotted, Dict.get?] at h
    | 0, i' + 1 => simp [Mem.dict, Mem.obj, knotted, Dict.get?] at h'
  · match r with
    | 0 => simp [Mem.elems, knotted] at h ⊢; omega
    | 1 => simp [Mem.elems, knotted] at h ⊢; omega
    | 2 => simp [Mem.elems, knotted] at h ⊢; omega
    | r + 3 => simp [Mem.elems, knotted] at h

example : (deepCopy 10 0 knotted).1.toOption = some 1 ∧
    (deepCopy 10 0 knotted).2.dict 1 = [(b!"a", 3), (b!"b", 5)] ∧
    (deepCopy 10 0 knotted).2.lists = [[.list 2], [.list 2, .atom b!"x"], [.list 0, .none],
      [.list 4], [.list 3, .none], [.list 4, .atom b!"x"]] ∧
    (deepCopy 2 0 knotted).1.toOption = none := by
  decide +kernel

end Mem
end Verif
