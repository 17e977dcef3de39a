import Verif.Props.MVDict
import Verif.Props.ReadOnly
import Verif.Py.Utf8
/-!
# A mutable `QueryDict` as a map (C109) and what the changing methods return (C110)
-/

namespace Verif
open Spec Mem
variable {κ α : Type} [DecidableEq κ]

/-! ## C109: a map whose keys and values pass a check -/

namespace Spec

/-- Check values one after the other. -/
def checkAll (ok : Val α → Except Exc (Val α)) : List (Val α) → Except Exc Unit
  | [] => .ok ()
  | v :: vs =>
    match ok v with
    | .error e => .error e
    | .ok _ => checkAll ok vs

/-- Append lists of values to keys, one after the other; only a key that is not there yet is
checked.  The first key refused ends it; what was appended before stays. -/
def addChecked (ok : κ → Except Exc κ) : List (κ × List (Val α)) → AMap κ α → Except Exc Unit × AMap κ α
  | [], A => (.ok (), A)
  | (k, vs) :: t, A =>
    if (A k).isSome then addChecked ok t (A.add k vs)
    else
      match ok k with
      | .error e => (.error e, A)
      | .ok _ => addChecked ok t (A.add k vs)

/-- The positional argument of `update` with checks.  A `TypeError` inside a mapping is reported as a
`ValueError`. -/
def joinChecked (ok : κ → Except Exc κ) (other : Nat → List (κ × List (Val α))) (arg : UpdArg κ α) (A : AMap κ α) :
    Except Exc Unit × AMap κ α :=
  match arg with
  | .absent => (.ok (), A)
  | .mvd j => addChecked ok (other j) A
  | .mapping items =>
    match addChecked ok (items.map fun p => (p.1, [p.2])) A with
    | (.error .typeError, A) => (.error .valueError, A)
    | r => r
  | .other => (.error .attributeError, A)

/-- `setlist` with checks: the key first, then what is to be iterated over, then its elements. -/
def setChecked (C : Conv κ α) (content : Nat → List (Val α)) (k : κ) (p : Val α) (A : AMap κ α) :
    Except Exc Unit × AMap κ α :=
  match C.key k with
  | .error e => (.error e, A)
  | .ok _ =>
    match (match p with
      | .none => .error .typeError
      | .list r => .ok (content r)
      | .atom a => C.iter a : Except Exc (List (Val α))) with
    | .error e => (.error e, A)
    | .ok vs =>
      match checkAll C.val vs with
      | .error e => (.error e, A)
      | .ok () => (.ok (), A.upd k (some vs))

/-- The effect of a call on a mutable `QueryDict` whose conversions only check; `other` gives the
keys and lists of the dictionaries passed as arguments, in their order. -/
def Call.effectQ (C : Conv κ α) (content : Nat → List (Val α)) (other : Nat → List (κ × List (Val α))) :
    Call κ α → AMap κ α → Except Exc Unit × AMap κ α
  | .set k v, A =>
    match C.key k with
    | .error e => (.error e, A)
    | .ok _ =>
      match C.val v with
      | .error e => (.error e, A)
      | .ok _ => (.ok (), A.upd k (some [v]))
  | .setlist k p, A => setChecked C content k p A
  | .setdefault k v, A =>
    match C.key k with
    | .error e => (.error e, A)
    | .ok _ =>
      match C.val v with
      | .error e => (.error e, A)
      | .ok _ => (.ok (), if (A k).isSome then A else A.upd k (some [v]))
  | .setlistdefault k p, A =>
    if (A k).isSome then (.ok (), A)
    else
      match p with
      | .none =>
        match C.key k with
        | .error e => (.error e, A)
        | .ok _ => (.ok (), A.upd k (some []))
      | p => setChecked C content k p A
  | .append k v, A =>
    match C.key k with
    | .error e => (.error e, A)
    | .ok _ =>
      match C.val v with
      | .error e => (.error e, A)
      | .ok _ => (.ok (), A.add k [v])
  | .update arg kwargs, A =>
    match joinChecked C.key other arg A with
    | (.error e, A) => (.error e, A)
    | (.ok (), A) => addChecked C.key (kwargs.map fun p => (p.1, [p.2])) A
  | .del k, A => if (A k).isSome then (.ok (), A.upd k none) else (.error .keyError, A)
  | .pop k dflt, A =>
    if (A k).isSome then (.ok (), A.upd k none)
    else if dflt.isSome then (.ok (), A) else (.error .keyError, A)
  | .clear, _ => (.ok (), fun _ => none)

end Spec

/-- The conversions leave what they accept as it is. -/
structure Conv.Checks (C : Conv κ α) : Prop where
  key : ∀ k k', C.key k = .ok k' → k' = k
  val : ∀ v v', C.val v = .ok v' → v' = v

/-- `list(d.lists())`. -/
def Mem.listing (m : Mem κ α) (j : Nat) : List (κ × List (Val α)) := (m.dict j).map fun p => (p.1, m.elems p.2)

theorem convAll_checks {C : Conv κ α} (hC : C.Checks) (vs : List (Val α)) :
    convAll C vs = (match checkAll C.val vs with | .error e => .error e | .ok () => .ok vs) := by
  induction vs with
  | nil => rfl
  | cons v t ih =>
    unfold convAll checkAll
    cases hv : C.val v with
    | error e => rfl
    | ok v' =>
      have := hC.val _ _ hv
      subst this
      simp only [ih]
      cases checkAll C.val t <;> rfl

/-- A mutable `QueryDict` at the address `i`. -/
structure OpenQ (m : Mem κ α) (i : Nat) : Prop where
  lt : i < m.dicts.length
  cls : (m.obj i).cls = .query
  mutbl : (m.obj i).mutable = true

theorem OpenQ.of_kept {m m' : Mem κ α} {i j : Nat} (o : OpenQ m i) (h : Kept j m m') : OpenQ m' i :=
  ⟨by rw [h.dicts]; exact o.lt, by rw [h.cls]; exact o.cls, by rw [h.mutbl]; exact o.mutbl⟩

theorem OpenQ.assert {m : Mem κ α} {i : Nat} (o : OpenQ m i) : m.assertMutable i = .ok () := by
  unfold assertMutable; simp [o.cls, o.mutbl]

theorem OpenQ.works {C : Conv κ α} {m : Mem κ α} {i : Nat} (o : OpenQ m i) {k : κ} (h : C.key k = .ok k) : Works C m i k :=
  ⟨o.lt, .inr ⟨o.cls, o.mutbl, h⟩⟩

theorem setList_query {C : Conv κ α} (hC : C.Checks) {m : Mem κ α} (wf : m.WF) {i : Nat} (o : OpenQ m i) (k : κ) (p : Val α) :
    (setList C i k p m).1 = (setChecked C m.elems k p (m.abs i)).1 ∧
    (setList C i k p m).2.abs i = (setChecked C m.elems k p (m.abs i)).2 := by
  unfold setList setChecked
  simp only [o.cls, o.assert]
  cases hk : C.key k with
  | error e => exact ⟨rfl, rfl⟩
  | ok k' =>
    have := hC.key _ _ hk
    subst this
    have fin : ∀ vs : List (Val α),
        (match convAll C vs with
          | .error e => (.error e, m)
          | .ok vs => (.ok (), m.put i k' vs) : Res (Mem κ α) Unit).1 =
        (match checkAll C.val vs with
          | .error e => (.error e, m.abs i)
          | .ok () => (.ok (), (m.abs i).upd k' (some vs)) : Except Exc Unit × AMap κ α).1 ∧
        (match convAll C vs with
          | .error e => (.error e, m)
          | .ok vs => (.ok (), m.put i k' vs) : Res (Mem κ α) Unit).2.abs i =
        (match checkAll C.val vs with
          | .error e => (.error e, m.abs i)
          | .ok () => (.ok (), (m.abs i).upd k' (some vs)) : Except Exc Unit × AMap κ α).2 := by
      intro vs
      rw [convAll_checks hC]
      cases checkAll C.val vs with
      | error e => exact ⟨rfl, rfl⟩
      | ok u => exact ⟨rfl, abs_put wf o.lt _ _⟩
    cases p with
    | none => exact ⟨rfl, rfl⟩
    | list r => exact fin _
    | atom a =>
      simp only
      cases C.iter a with
      | error e => exact ⟨rfl, rfl⟩
      | ok vs => exact fin vs

/-- A key already there needs no check. -/
theorem setListDefault_there {C : Conv κ α} {m : Mem κ α} {i : Nat} (o : OpenQ m i) {k : κ} {r : Nat}
    (h : (m.dict i).get? k = some r) (p : Val α) : setListDefault C i k p m = (.ok (.list r), m) := by
  unfold setListDefault ensureList contains
  simp [o.assert, h, getListLive, o.cls]

theorem setListDefault_refused {C : Conv κ α} {m : Mem κ α} {i : Nat} (o : OpenQ m i) {k : κ} {e : Exc}
    (h : (m.abs i k).isSome = false) (hk : C.key k = .error e) :
    setListDefault C i k .none m = (.error e, (m.alloc []).2) := by
  have ha : (m.alloc []).2.assertMutable i = .ok () := o.assert
  have hc : ((m.alloc []).2.obj i).cls = .query := o.cls
  unfold setListDefault ensureList
  rw [o.assert, contains_iff, h]
  simp only [Mem.alloc] at *
  simp [setList, ha, hc, hk]

/-- One step of `update`: the list to append to, or the refusal. -/
theorem step_query {C : Conv κ α} (hC : C.Checks) {m : Mem κ α} (wf : m.WF) {i : Nat} (o : OpenQ m i) (k : κ) :
    (∃ m' r, setListDefault C i k .none m = (.ok (.list r), m') ∧ Touch i m m' ∧ (m'.dict i).get? k = some r ∧
      m'.elems r = (m.abs i k).getD [] ∧ (∀ k', k' ≠ k → m'.abs i k' = m.abs i k') ∧
      ((m.abs i k).isSome → m' = m) ∧
      ((m.abs i k).isSome ∨ ∃ k', C.key k = .ok k')) ∨
    (∃ e, (m.abs i k).isSome = false ∧ C.key k = .error e ∧
      setListDefault C i k .none m = (.error e, (m.alloc []).2)) := by
  cases hg : (m.dict i).get? k with
  | some r =>
    have hA : m.abs i k = some (m.elems r) := by unfold Mem.abs; simp [hg]
    exact .inl ⟨m, r, setListDefault_there o hg _, .refl _, hg, by simp [hA], fun _ _ => rfl, fun _ => rfl, .inl (by simp [hA])⟩
  | none =>
    have hA : m.abs i k = none := by unfold Mem.abs; simp [hg]
    cases hk : C.key k with
    | error e =>
      exact .inr ⟨e, by simp [hA], rfl, setListDefault_refused o (by simp [hA]) hk⟩
    | ok k' =>
      have := hC.key _ _ hk
      subst this
      obtain ⟨m', r, h1, h2, -, h4, h5⟩ := setListDefault_none wf (o.works hk)
      rw [hA] at h5
      simp only [Option.isSome_none, Bool.false_eq_true, if_false] at h5
      refine .inl ⟨m', r, h1, h2, h4, ?_, fun k'' hk'' => ?_, fun h => by simp [hA] at h, .inr ⟨_, rfl⟩⟩
      · have h3 : m'.abs i k' = some (m'.elems r) := by unfold Mem.abs; simp [h4]
        rw [h5] at h3
        simp only [AMap.upd, if_true, Option.some.injEq] at h3
        simp [hA, ← h3]
      · rw [h5]; simp [AMap.upd, hk'']

theorem appendAll_query {C : Conv κ α} (hC : C.Checks) {i : Nat} (items : List (κ × Val α)) (m : Mem κ α) (wf : m.WF)
    (o : OpenQ m i) :
    (appendAll C i items m).1 = (addChecked C.key (items.map fun p => (p.1, [p.2])) (m.abs i)).1 ∧
    (appendAll C i items m).2.abs i = (addChecked C.key (items.map fun p => (p.1, [p.2])) (m.abs i)).2 := by
  induction items generalizing m with
  | nil => exact ⟨rfl, rfl⟩
  | cons p t ih =>
    obtain ⟨k, v⟩ := p
    simp only [List.map_cons]
    unfold appendAll addChecked appendBase
    rcases step_query hC wf o k with ⟨m', r, h1, h2, h3, h4, h5, -, h6⟩ | ⟨e, h1, h2, h3⟩
    · rw [h1]
      simp only [appendTo]
      have tt : Touch i m (m'.write r (m'.elems r ++ [v])) := .trans h2 (.write _ _ _ _ h3)
      have kp := tt.kept wf
      have ha : (m'.write r (m'.elems r ++ [v])).abs i = (m.abs i).add k [v] := by
        rw [abs_write (h2.kept wf).wf h3, h4]
        funext k'
        unfold AMap.add AMap.upd
        split
        · rfl
        · exact h5 _ ‹_›
      have := ih _ kp.wf (o.of_kept kp)
      rw [ha] at this
      rcases h6 with h6 | ⟨k', h6⟩
      · rw [if_pos h6]; exact this
      · by_cases hs : (m.abs i k).isSome
        · rw [if_pos hs]; exact this
        · rw [if_neg hs, h6]; exact this
    · rw [h3]
      simp only [h1, Bool.false_eq_true, if_false, h2]
      exact ⟨trivial, abs_alloc wf _ _⟩

theorem extendAll_query {C : Conv κ α} (hC : C.Checks) {i j : Nat} {L : κ → List (Val α)} (items : Dict κ Nat)
    (hn : items.keys.Nodup) (m : Mem κ α) (wf : m.WF) (o : OpenQ m i)
    (hr : ∀ k r, (k, r) ∈ items → (m.dict j).get? k = some r ∧ m.elems r = L k) :
    (extendAll C i items m).1 = (addChecked C.key (items.map fun p => (p.1, L p.1)) (m.abs i)).1 ∧
    (extendAll C i items m).2.abs i = (addChecked C.key (items.map fun p => (p.1, L p.1)) (m.abs i)).2 := by
  induction items generalizing m with
  | nil => exact ⟨rfl, rfl⟩
  | cons p t ih =>
    obtain ⟨k, r'⟩ := p
    simp only [Dict.keys, List.map_cons, List.nodup_cons] at hn
    simp only [List.map_cons]
    unfold extendAll addChecked
    obtain ⟨hd, hL⟩ := hr k r' (by simp)
    have keep : ∀ (m1 : Mem κ α), Touch i m m1 → ((m.abs i k).isSome → m1 = m) →
        ∀ k' r'', (m.dict j).get? k' = some r'' → (j = i → (m.abs i k).isSome) →
        (m1.dict j).get? k' = some r'' ∧ m1.elems r'' = m.elems r'' := by
      intro m1 t1 hs k' r'' hg hji
      by_cases hj : j = i
      · rw [hs (hji hj)]; exact ⟨hg, rfl⟩
      · have kp := t1.kept wf
        have h1 : (m1.dict j).get? k' = some r'' := by rw [kp.dict j hj]; exact hg
        refine ⟨h1, ?_⟩
        have h2 := congrFun (kp.abs j hj) k'
        unfold Mem.abs at h2
        rw [h1, hg] at h2
        simpa using h2
    have hji : j = i → (m.abs i k).isSome := by rintro rfl; unfold Mem.abs; simp [hd]
    rcases step_query hC wf o k with ⟨m', r, h1, h2, h3, h4, h5, h7, h6⟩ | ⟨e, h1, h2, h3⟩
    · rw [h1]
      simp only
      have tt : Touch i m (m'.write r (m'.elems r ++ m'.elems r')) := .trans h2 (.write _ _ _ _ h3)
      have kp := tt.kept wf
      have he : m'.elems r' = L k := by rw [(keep m' h2 h7 k r' hd hji).2, hL]
      have ha : (m'.write r (m'.elems r ++ m'.elems r')).abs i = (m.abs i).add k (L k) := by
        rw [abs_write (h2.kept wf).wf h3, h4, he]
        funext k'
        unfold AMap.add AMap.upd
        split
        · rfl
        · exact h5 _ ‹_›
      have := ih hn.2 _ kp.wf (o.of_kept kp) (by
        intro k' r'' hm
        have hk : k' ≠ k := by rintro rfl; exact hn.1 (List.mem_map.2 ⟨_, hm, rfl⟩)
        obtain ⟨hd', hL'⟩ := hr k' r'' (by simp [hm])
        obtain ⟨h8, h9⟩ := keep m' h2 h7 k' r'' hd' hji
        refine ⟨h8, ?_⟩
        rw [elems_write, if_neg, h9, hL']
        rintro ⟨rfl, -⟩
        exact hk ((h2.kept wf).wf.inj _ _ _ _ _ h8 h3).2)
      rw [ha] at this
      rcases h6 with h6 | ⟨k', h6⟩
      · rw [if_pos h6]; exact this
      · by_cases hs : (m.abs i k).isSome
        · rw [if_pos hs]; exact this
        · rw [if_neg hs, h6]; exact this
    · rw [h3]
      simp only [h1, Bool.false_eq_true, if_false, h2]
      exact ⟨trivial, abs_alloc wf _ _⟩

theorem listing_eq {m : Mem κ α} (wf : m.WF) (j : Nat) :
    m.listing j = (m.dict j).map fun p => (p.1, (m.abs j p.1).getD []) := by
  unfold listing
  apply List.map_congr_left
  intro p hp
  have := Dict.get?_of_mem (wf.nodup j) (k := p.1) (v := p.2) hp
  unfold Mem.abs; simp [this]

/-- One call on a mutable `QueryDict`. -/
theorem callQ_works {C : Conv κ α} (hC : C.Checks) {i : Nat} {m : Mem κ α} (wf : m.WF) (o : OpenQ m i) (c : Call κ α) :
    (call C i c m).1 = (c.effectQ C m.elems m.listing (m.abs i)).1 ∧
    (call C i c m).2.abs i = (c.effectQ C m.elems m.listing (m.abs i)).2 := by
  have hA := o.assert
  have hq := o.cls
  cases c with
  | set k v =>
    simp only [Call.effectQ, call, setItem, hq, hA]
    cases hk : C.key k with
    | error e => exact ⟨rfl, rfl⟩
    | ok k' =>
      have := hC.key _ _ hk
      subst this
      simp only
      cases hv : C.val v with
      | error e => exact ⟨rfl, rfl⟩
      | ok v' =>
        have := hC.val _ _ hv
        subst this
        exact ⟨rfl, abs_put wf o.lt _ _⟩
  | setlist k p => exact setList_query hC wf o k p
  | setdefault k v =>
    simp only [Call.effectQ, call, setDefault, hq, hA, if_true]
    cases hk : C.key k with
    | error e => exact ⟨rfl, rfl⟩
    | ok k' =>
      have := hC.key _ _ hk
      subst this
      simp only
      cases hv : C.val v with
      | error e => exact ⟨rfl, rfl⟩
      | ok v' =>
        have := hC.val _ _ hv
        subst this
        simp only [setDefaultBase, contains_iff]
        by_cases h : (m.abs i k').isSome
        · simp only [h, if_true]
          have h' := h
          unfold Mem.abs at h
          cases hg : (m.dict i).get? k' with
          | none => rw [hg] at h; simp at h
          | some r =>
            simp only [getItem, hg]
            cases hl : (m.elems r).getLast? with
            | some v => exact ⟨rfl, rfl⟩
            | none => exact ⟨rfl, abs_alloc wf _ _⟩
        · simp only [h, if_false, setItem, hq, hA, hk, hv]
          have hg : ((m.put i k' [v']).dict i).get? k' = some m.lists.length := by
            rw [dict_put, if_pos ⟨rfl, o.lt⟩, Dict.get?_set, if_pos rfl]
          have hl : ((m.put i k' [v']).elems m.lists.length).getLast? = some v' := by rw [elems_put_new]; rfl
          simp only [Bool.false_eq_true, if_false, getItem, hg, hl]
          exact ⟨rfl, abs_put wf o.lt _ _⟩
  | setlistdefault k p =>
    simp only [Call.effectQ, call]
    cases hg : (m.dict i).get? k with
    | some r =>
      have hs : (m.abs i k).isSome := by unfold Mem.abs; simp [hg]
      rw [setListDefault_there o hg, if_pos hs]
      exact ⟨rfl, rfl⟩
    | none =>
      have hs : (m.abs i k).isSome = false := by unfold Mem.abs; simp [hg]
      simp only [hs, Bool.false_eq_true, if_false]
      have other : ∀ p : Val α, p ≠ .none →
          (drop (setListDefault C i k p m)).1 = (setChecked C m.elems k p (m.abs i)).1 ∧
          (drop (setListDefault C i k p m)).2.abs i = (setChecked C m.elems k p (m.abs i)).2 := by
        intro p hp
        have he : ensureList C i k p m = setList C i k p m := by
          unfold ensureList
          rw [contains_iff, hs]
          cases p with
          | none => exact absurd rfl hp
          | _ => rfl
        have h1 := setList_query hC wf o k p
        have ht := setList_touch C i k p m
        simp only [setListDefault, hA, he]
        generalize setList C i k p m = z at *
        obtain ⟨x, m1⟩ := z
        cases x with
        | error e => exact h1
        | ok u =>
          have hw := (ht.kept wf).wf
          simp only [getListLive]
          cases (m1.dict i).get? k with
          | some r => exact h1
          | none => exact ⟨h1.1, (abs_alloc hw _ _).trans h1.2⟩
      cases p with
      | none =>
        rcases step_query hC wf o k with ⟨m', r, h1, h2, h3, h4, h5, -, h6⟩ | ⟨e, h1, h2, h3⟩
        · rcases h6 with h6 | ⟨k', h6⟩
          · rw [hs] at h6; cases h6
          · rw [h1, h6]
            refine ⟨rfl, ?_⟩
            funext k''
            change m'.abs i k'' = (m.abs i).upd k (some []) k''
            unfold AMap.upd
            split
            · rename_i hk; subst hk
              have hn : m.abs i k'' = none := by unfold Mem.abs; simp [hg]
              unfold Mem.abs; rw [h3]; simp [h4, hn]
            · exact h5 _ ‹_›
        · rw [h3, h2]; exact ⟨rfl, abs_alloc wf _ _⟩
      | list r => exact other _ (by simp)
      | atom a => exact other _ (by simp)
  | append k v =>
    simp only [Call.effectQ, call, appendList, hq, hA, if_true]
    cases hk : C.key k with
    | error e => exact ⟨rfl, rfl⟩
    | ok k' =>
      have := hC.key _ _ hk
      subst this
      simp only
      cases hv : C.val v with
      | error e => exact ⟨rfl, rfl⟩
      | ok v' =>
        have := hC.val _ _ hv
        subst this
        obtain ⟨m', h1, -, h2⟩ := appendBase_works wf (o.works hk) v'
        simp only [h1]
        exact ⟨trivial, h2⟩
  | update arg kw =>
    simp only [Call.effectQ, call, update, hq, if_neg (by simp : ¬ DCls.query = DCls.immutable)]
    have key : (updateArg C i arg m).1 = (joinChecked C.key m.listing arg (m.abs i)).1 ∧
        (updateArg C i arg m).2.abs i = (joinChecked C.key m.listing arg (m.abs i)).2 ∧
        Touch i m (updateArg C i arg m).2 := by
      cases arg with
      | absent => exact ⟨rfl, rfl, .refl _⟩
      | other => exact ⟨rfl, rfl, .refl _⟩
      | mvd j =>
        have := extendAll_query hC (j := j) (L := fun k => (m.abs j k).getD []) (m.dict j) (wf.nodup j) m wf o
          (fun k r h => by
            have := Dict.get?_of_mem (wf.nodup j) h
            exact ⟨this, by unfold Mem.abs; simp [this]⟩)
        simp only [joinChecked, listing_eq wf]
        exact ⟨this.1, this.2, extendAll_touch C i _ m wf⟩
      | mapping items =>
        have h1 := appendAll_query hC items m wf o
        have ht := appendAll_touch C i items m wf
        simp only [joinChecked, updateArg]
        generalize appendAll C i items m = z at *
        generalize addChecked C.key (items.map fun p => (p.1, [p.2])) (m.abs i) = y at *
        obtain ⟨x, m1⟩ := z
        obtain ⟨x', A⟩ := y
        obtain ⟨rfl, rfl⟩ := h1
        rcases x with e | u
        · cases e <;> exact ⟨rfl, rfl, ht⟩
        · exact ⟨rfl, rfl, ht⟩
    generalize (joinChecked C.key m.listing arg (m.abs i)) = y at *
    generalize updateArg C i arg m = z at *
    obtain ⟨x, m1⟩ := z
    obtain ⟨x', A⟩ := y
    obtain ⟨k1, k2, k3⟩ := key
    simp only at k1 k2 k3
    subst k1 k2
    rcases x with e | u
    · exact ⟨rfl, rfl⟩
    · exact appendAll_query hC kw m1 (k3.kept wf).wf (o.of_kept (k3.kept wf))
  | del k =>
    simp only [Call.effectQ, call, delItem, hA, contains_iff]
    by_cases h : (m.abs i k).isSome
    · simp only [h, if_true]; exact ⟨trivial, abs_erase o.lt k⟩
    · simp only [h, if_false]; exact ⟨rfl, rfl⟩
  | pop k d =>
    have hs : (m.abs i k).isSome = ((m.dict i).get? k).isSome := by unfold Mem.abs; simp
    simp only [Call.effectQ, call, pop, hq, hA, if_true, hs]
    cases hg : (m.dict i).get? k with
    | some r => simp only [Option.isSome_some, if_true, drop]; exact ⟨trivial, abs_erase o.lt k⟩
    | none =>
      cases d with
      | none => simp [drop]
      | some v => simp [drop]
  | clear =>
    simp only [Call.effectQ, call, clear, hq, hA, if_true]
    exact ⟨trivial, abs_clear o.lt⟩

/-- The calls made so far on the abstract map; the memory serves only to look at the arguments of
the calls. -/
def specCallsQ (C : Conv κ α) (i : Nat) : List (Call κ α) → Mem κ α → AMap κ α → AMap κ α
  | [], _, A => A
  | c :: cs, m, A => specCallsQ C i cs (call C i c m).2 (c.effectQ C m.elems m.listing A).2

theorem runCallsQ_abs {C : Conv κ α} (hC : C.Checks) (i : Nat) (cs : List (Call κ α)) (m : Mem κ α) (wf : m.WF)
    (o : OpenQ m i) :
    (runCalls C i cs m).WF ∧ OpenQ (runCalls C i cs m) i ∧ (∀ j, j ≠ i → (runCalls C i cs m).abs j = m.abs j) ∧
    (runCalls C i cs m).abs i = specCallsQ C i cs m (m.abs i) := by
  induction cs generalizing m with
  | nil => exact ⟨wf, o, fun _ _ => rfl, rfl⟩
  | cons c cs ih =>
    have kp := (call_touch C i c m wf).kept wf
    obtain ⟨h1, h2, h3, h4⟩ := ih (call C i c m).2 kp.wf (o.of_kept kp)
    refine ⟨h1, h2, fun j hj => (h3 j hj).trans (kp.abs j hj), ?_⟩
    unfold runCalls specCallsQ
    rw [h4, (callQ_works hC wf o c).2]

/-- **C109**, for conversions that leave what they accept as it is: make any sequence of calls on a
mutable `QueryDict`; every lookup then answers as the abstract map to which the same calls were
applied, each call returns or raises exactly as the abstract one does, and other dictionaries have
not changed.  (Missing: charsets whose encoding of an ASCII text is not the text itself, see
`C109_append_refuted`, and the values given to `update`, see `C109_refuted`.) -/
theorem C109_map_partial {C : Conv κ α} (hC : C.Checks) (i : Nat) (m : Mem κ α) (wf : m.WF)
    (hi : i < m.dicts.length) (hc : (m.obj i).cls = .query) (hm : (m.obj i).mutable = true) (cs : List (Call κ α)) :
    Answers (runCalls C i cs m) i (specCallsQ C i cs m (m.abs i)) ∧
    (∀ c, (call C i c (runCalls C i cs m)).1 =
      (c.effectQ C (runCalls C i cs m).elems (runCalls C i cs m).listing (specCallsQ C i cs m (m.abs i))).1) ∧
    (∀ j, j ≠ i → Answers (runCalls C i cs m) j (m.abs j)) := by
  obtain ⟨h1, h2, h3, h4⟩ := runCallsQ_abs hC i cs m wf ⟨hi, hc, hm⟩
  refine ⟨h4 ▸ answers_abs _ _, fun c => ?_, fun j hj => (h3 j hj) ▸ answers_abs _ _⟩
  rw [← h4]
  exact (callQ_works hC h1 h2 c).1

/-- The codec leaves the native strings it accepts as they are: every charset that extends ASCII. -/
theorem queryConv_checks {C : Codecs} {enc : Bytes} (h : ∀ s t, C.strEncode enc s = .ok t → t = s) :
    (queryConv C enc).Checks := by
  have key : ∀ k k', bytesToTextV C enc k = .ok k' → k' = k := by
    intro k k' e
    cases k with
    | u s => cases e; rfl
    | b s =>
      simp only [bytesToTextV] at e
      cases hs : C.strEncode enc s with
      | error e' => rw [hs] at e; cases e
      | ok t => rw [hs] at e; cases e; rw [h _ _ hs]
  refine ⟨key, fun v v' e => ?_⟩
  cases v with
  | none => cases e; rfl
  | list r => cases e; rfl
  | atom a =>
    simp only [queryConv] at e
    cases ha : bytesToTextV C enc a with
    | error e' => rw [ha] at e; cases e
    | ok a' => rw [ha] at e; cases e; rw [key _ _ ha]

/-- What a new `QueryDict` is. -/
theorem newQueryDict_open {C : Codecs} {S : Settings} {qs : Option PyStr} {m m' : Mem PyStr PyStr} (wf : m.WF) {i : Nat}
    (h : newQueryDict C S qs true m = (.ok i, m')) :
    m'.WF ∧ OpenQ m' i ∧ ∃ ps : List (UStr × UStr),
      m'.abs i = AMap.addAll (fun _ => none) (ps.map fun p => (.u p.1, .atom (.u p.2))) := by
  obtain ⟨hc, hm⟩ := newQueryDict_mutable wf h
  unfold newQueryDict at h
  simp only at h
  cases hq : queryText C S qs with
  | error e => rw [hq] at h; cases h
  | ok q =>
    rw [hq] at h
    simp only at h
    cases hp : limitedParseQsl C q true S.defaultCharset S.maxFields with
    | error e => rw [hp] at h; cases h
    | ok pairs =>
      rw [hp] at h
      simp only at h
      have wf2 : (m.newDict .query true).WF := wf.newDict ..
      have hi : m.dicts.length < (m.newDict .query true).dicts.length := by simp [Mem.newDict]
      obtain ⟨m2, h2, t2, a2⟩ := appendLists_works (C := queryConv C S.defaultCharset) (queryConv_key C _)
        (queryConv_val C _) pairs (i := m.dicts.length) (m.newDict .query true) wf2 hi
        (by simp [Mem.newDict, Mem.obj]) (by simp [Mem.newDict, Mem.obj])
      have kp := t2.kept wf2
      rw [h2] at h
      simp only [Prod.mk.injEq, Except.ok.injEq] at h
      obtain ⟨rfl, rfl⟩ := h
      refine ⟨⟨fun j => ?_, fun j k r hr => ?_, fun j k j' k' r hr hr' => ?_⟩, ⟨?_, hc, hm⟩, pairs, ?_⟩
      · rw [setMutable_dict]; exact kp.wf.nodup j
      · rw [setMutable_dict] at hr; exact kp.wf.valid j k r hr
      · rw [setMutable_dict] at hr hr'; exact kp.wf.inj j k j' k' r hr hr'
      · have h3 := kp.dicts
        simp only [Mem.newDict, List.length_append, List.length_singleton] at h3
        simp only [Mem.setMutable, List.length_set]
        omega
      · rw [setMutable_abs, a2]
        congr 1
        rw [Mem.newDict_abs]
        funext k
        simp [Mem.abs, Mem.dict, Mem.obj, Dict.get?]

/-- **C109** for a `QueryDict(settings, query_string, mutable=True)` under a charset that extends ASCII. -/
theorem C109_query_partial {C : Codecs} {S : Settings} {qs : Option PyStr} {m m' : Mem PyStr PyStr} (wf : m.WF) {i : Nat}
    (h : newQueryDict C S qs true m = (.ok i, m'))
    (hC : ∀ s t, C.strEncode S.defaultCharset s = .ok t → t = s) (cs : List (Call PyStr PyStr)) :
    let K := queryConv C S.defaultCharset
    Answers (runCalls K i cs m') i (specCallsQ K i cs m' (m'.abs i)) ∧
    ∀ c, (call K i c (runCalls K i cs m')).1 =
      (c.effectQ K (runCalls K i cs m').elems (runCalls K i cs m').listing (specCallsQ K i cs m' (m'.abs i))).1 := by
  obtain ⟨h1, h2, -⟩ := newQueryDict_open wf h
  have := C109_map_partial (queryConv_checks hC) i m' h1 h2.lt h2.cls h2.mutbl cs
  exact ⟨this.1, this.2.1⟩

/-! ### What is stored has been converted -/

/-- Every value in the map is accepted, and so is every key. -/
def Accepted (C : Conv κ α) (A : AMap κ α) : Prop :=
  ∀ k vs, A k = some vs → (∃ k', C.key k = .ok k') ∧ ∀ v ∈ vs, ∃ v', C.val v = .ok v'

theorem checkAll_ok {ok : Val α → Except Exc (Val α)} {vs : List (Val α)} (h : checkAll ok vs = .ok ()) :
    ∀ v ∈ vs, ∃ v', ok v = .ok v' := by
  induction vs with
  | nil => simp
  | cons v t ih =>
    unfold checkAll at h
    cases hv : ok v with
    | error e => rw [hv] at h; cases h
    | ok v' =>
      rw [hv] at h
      intro w hw
      rcases List.mem_cons.1 hw with rfl | hw
      · exact ⟨_, hv⟩
      · exact ih h w hw

theorem Accepted.upd {C : Conv κ α} {A : AMap κ α} (h : Accepted C A) {k : κ} {vs : List (Val α)}
    (hk : ∃ k', C.key k = .ok k') (hv : ∀ v ∈ vs, ∃ v', C.val v = .ok v') : Accepted C (A.upd k (some vs)) := by
  intro k' vs' e
  unfold AMap.upd at e
  split at e
  · rename_i hk'; subst hk'; cases e; exact ⟨hk, hv⟩
  · exact h _ _ e

theorem Accepted.del {C : Conv κ α} {A : AMap κ α} (h : Accepted C A) (k : κ) : Accepted C (A.upd k none) := by
  intro k' vs' e
  unfold AMap.upd at e
  split at e
  · cases e
  · exact h _ _ e

theorem setChecked_accepted {C : Conv κ α} {content : Nat → List (Val α)} {k : κ} {p : Val α} {A : AMap κ α}
    (h : Accepted C A) : Accepted C (setChecked C content k p A).2 := by
  unfold setChecked
  cases hk : C.key k with
  | error e => exact h
  | ok k' =>
    have fin : ∀ vs : List (Val α), Accepted C (match checkAll C.val vs with
        | .error e => (.error e, A)
        | .ok () => (.ok (), A.upd k (some vs)) : Except Exc Unit × AMap κ α).2 := by
      intro vs
      cases hc : checkAll C.val vs with
      | error e => exact h
      | ok u => exact h.upd ⟨_, hk⟩ (checkAll_ok hc)
    cases p with
    | none => exact h
    | list r => exact fin _
    | atom a =>
      simp only
      cases C.iter a with
      | error e => exact h
      | ok vs => exact fin vs

/-- Calls other than `update`. -/
def Call.notUpdate : Call κ α → Prop
  | .update _ _ => False
  | _ => True

theorem effectQ_accepted {C : Conv κ α} {content : Nat → List (Val α)} {other : Nat → List (κ × List (Val α))}
    {c : Call κ α} (hc : Call.notUpdate c) {A : AMap κ α} (h : Accepted C A) :
    Accepted C (c.effectQ C content other A).2 := by
  have kv : ∀ {k : κ} {v : Val α} {f : AMap κ α}, ((∃ k', C.key k = .ok k') → (∃ v', C.val v = .ok v') → Accepted C f) →
      Accepted C (match C.key k with
        | .error e => (.error e, A)
        | .ok _ =>
          match C.val v with
          | .error e => (.error e, A)
          | .ok _ => (.ok (), f) : Except Exc Unit × AMap κ α).2 := by
    intro k v f hf
    cases hk : C.key k with
    | error e => exact h
    | ok k' =>
      simp only
      cases hv : C.val v with
      | error e => exact h
      | ok v' => exact hf ⟨_, hk⟩ ⟨_, hv⟩
  cases c with
  | set k v => exact kv fun hk hv => h.upd hk (by simpa using hv)
  | setlist k p => exact setChecked_accepted h
  | setdefault k v =>
    refine kv fun hk hv => ?_
    split
    · exact h
    · exact h.upd hk (by simpa using hv)
  | setlistdefault k p =>
    simp only [Call.effectQ]
    split
    · exact h
    · cases p with
      | none =>
        simp only
        cases hk : C.key k with
        | error e => exact h
        | ok k' => exact h.upd ⟨_, hk⟩ (by simp)
      | list r => exact setChecked_accepted h
      | atom a => exact setChecked_accepted h
  | append k v =>
    refine kv fun hk hv => h.upd hk fun w hw => ?_
    rcases List.mem_append.1 hw with hw | hw
    · cases hA : A k with
      | none => rw [hA] at hw; cases hw
      | some vs => rw [hA] at hw; exact (h _ _ hA).2 w hw
    · simp only [List.mem_singleton] at hw; subst hw; exact hv
  | update arg kw => exact absurd hc id
  | del k =>
    simp only [Call.effectQ]
    split
    · exact h.del k
    · exact h
  | pop k d =>
    simp only [Call.effectQ]
    split
    · exact h.del k
    · split <;> exact h
  | clear => intro k vs e; cases e

theorem specCallsQ_accepted {C : Conv κ α} {i : Nat} (cs : List (Call κ α)) (hc : ∀ c ∈ cs, Call.notUpdate c)
    (m : Mem κ α) {A : AMap κ α} (h : Accepted C A) : Accepted C (specCallsQ C i cs m A) := by
  induction cs generalizing m A with
  | nil => exact h
  | cons c t ih =>
    exact ih (fun c' hc' => hc c' (by simp [hc'])) _ (effectQ_accepted (hc c (by simp)) h)

/-- **C109**: after any calls other than `update` on a mutable `QueryDict`, every key and every value
in it is one that `bytes_to_text` accepts and leaves as it is.  (Missing: `update`.) -/
theorem C109_converted_partial {C : Codecs} {S : Settings} {qs : Option PyStr} {m m' : Mem PyStr PyStr} (wf : m.WF)
    {i : Nat} (h : newQueryDict C S qs true m = (.ok i, m'))
    (hC : ∀ s t, C.strEncode S.defaultCharset s = .ok t → t = s) (cs : List (Call PyStr PyStr))
    (hc : ∀ c ∈ cs, Call.notUpdate c) :
    let K := queryConv C S.defaultCharset
    ∀ k vs, (runCalls K i cs m').abs i k = some vs → K.key k = .ok k ∧ ∀ v ∈ vs, K.val v = .ok v := by
  intro K k vs hk
  have hK : K.Checks := queryConv_checks hC
  obtain ⟨h1, h2, ps, h3⟩ := newQueryDict_open wf h
  obtain ⟨-, -, -, h4⟩ := runCallsQ_abs hK i cs m' h1 h2
  have h0 : Accepted K (m'.abs i) := by
    rw [h3]
    intro k vs e
    rw [addAll_get] at e
    split at e
    · rename_i hm
      simp only [Option.getD_none, List.nil_append, Option.some.injEq] at e
      obtain ⟨p, hp, rfl⟩ := List.mem_map.1 hm
      obtain ⟨q, -, rfl⟩ := List.mem_map.1 hp
      refine ⟨⟨_, rfl⟩, fun v hv => ?_⟩
      subst e
      obtain ⟨p', hp', rfl⟩ := List.mem_map.1 hv
      obtain ⟨q', -, rfl⟩ := List.mem_map.1 (List.mem_filter.1 hp').1
      exact ⟨_, rfl⟩
    · cases e
  have := specCallsQ_accepted (i := i) cs hc m' h0
  rw [← h4] at this
  obtain ⟨⟨k', e1⟩, e2⟩ := this k vs hk
  refine ⟨?_, fun v hv => ?_⟩
  · rw [e1, hK.key _ _ e1]
  · obtain ⟨v', e3⟩ := e2 v hv
    rw [e3, hK.val _ _ e3]

/-- The three charsets of `pyCodecs` extend ASCII. -/
theorem pyCodecs_checks (enc s t : Bytes) (h : pyCodecs.strEncode enc s = .ok t) : t = s := by
  simp only [pyCodecs] at h
  split at h
  · cases h
  · split at h <;> cases h; rfl

/-- `QueryDict(settings, 'a=1&a=2', mutable=True)` and calls on it: what is refused changes nothing. -/
example :
    let K := queryConv pyCodecs b!"utf-8"
    let m := (newQueryDict pyCodecs { defaultCharset := b!"utf-8" } (some (.b b!"a=1&a=2")) true {}).2
    let cs : List (Call PyStr PyStr) := [.append (.u [97]) (.atom (.b b!"3")), .set (.b b!"k") (.atom (.b [255])),
      .set (.b [255]) (.atom (.b b!"v")), .setdefault (.b b!"k") (.atom (.b b!"v")), .setlist (.b b!"s") (.atom (.b b!"xy")),
      .setlistdefault (.b b!"e") .none, .del (.b b!"k")]
    (newQueryDict pyCodecs { defaultCharset := b!"utf-8" } (some (.b b!"a=1&a=2")) true {}).1.toOption = some 0 ∧
    ((runCalls K 0 cs m).dict 0).keys = [.u [97], .b b!"s", .b b!"e"] ∧
    (runCalls K 0 cs m).abs 0 (.u [97]) = some [.atom (.u [49]), .atom (.u [50]), .atom (.b b!"3")] ∧
    (runCalls K 0 cs m).abs 0 (.b b!"s") = some [.atom (.b b!"x"), .atom (.b b!"y")] ∧
    (call K 0 (.set (.b b!"k") (.atom (.b [255]))) m).1.toOption = none := by
  decide +kernel

/-- C109 as the class says it: every value set on a mutable `QueryDict` has been converted. -/
def C109_statement : Prop :=
  ∀ (C : Codecs) (S : Settings) (qs : Option PyStr) (m m' : Mem PyStr PyStr) (i : Nat), m.WF →
    newQueryDict C S qs true m = (.ok i, m') → ∀ (cs : List (Call PyStr PyStr)) (k : PyStr) (vs : List (Val PyStr)),
      (runCalls (queryConv C S.defaultCharset) i cs m').abs i k = some vs →
        ∀ v ∈ vs, ∃ w, (queryConv C S.defaultCharset).val w = .ok v

/-- C109 is false: `q.update({'a': '\xff'})` stores the bytes as they are, though `q['a'] = '\xff'` is
refused with a `UnicodeDecodeError`. -/
theorem C109_refuted : ¬ C109_statement := by
  intro h
  have wf : ({} : Mem PyStr PyStr).WF := by
    have h : ∀ i, ({} : Mem PyStr PyStr).dict i = [] := by intro i; simp [Mem.dict, Mem.obj]
    refine ⟨fun i => ?_, fun i k r hr => ?_, fun i k i' k' r hr => ?_⟩
    · rw [h]; simp [Dict.keys]
    · rw [h] at hr; cases hr
    · rw [h] at hr; cases hr
  obtain ⟨w, hw⟩ := h pyCodecs {} none {} _ 0 wf (by rfl)
    [.update (.mapping [(.b b!"a", .atom (.b [255]))]) []] (.b b!"a") [.atom (.b [255])] (by decide +kernel)
    (.atom (.b [255])) (by simp)
  have := (queryConv_checks (pyCodecs_checks ({} : Settings).defaultCharset)).val _ _ hw
  rw [← this] at hw
  revert hw
  decide +kernel

/-- Every charset is written with two bytes for an ASCII character, as UTF-16BE does. -/
def wideCodecs : Codecs where
  decodeReplace _ b := .ok (Py.toU b)
  decode _ b := .ok (Py.toU b)
  strEncode _ b := if Py.isAscii b then .ok (b.flatMap fun c => [0, c]) else .error .unicodeDecodeError
  encode _ u := .ok (u.flatMap fun c => [UInt8.ofNat (c / 256), UInt8.ofNat c])

/-- What `appendlist` is for: the converted value is then the last one under the converted key. -/
def C109_append_statement : Prop :=
  ∀ (C : Codecs) (S : Settings) (qs : Option PyStr) (m m' : Mem PyStr PyStr) (i : Nat), m.WF →
    newQueryDict C S qs true m = (.ok i, m') → ∀ (k : PyStr) (v : Val PyStr) (m'' : Mem PyStr PyStr),
      appendList (queryConv C S.defaultCharset) i k v m' = (.ok (), m'') →
        ∃ k' v' vs, (queryConv C S.defaultCharset).key k = .ok k' ∧ (queryConv C S.defaultCharset).val v = .ok v' ∧
          m''.abs i k' = some (vs ++ [v'])

/-- That is false too under a charset that does not extend ASCII: the key is converted a second time
on its way through `setlist`, an empty list is stored under the result, and the value is lost. -/
theorem C109_append_refuted : ¬ C109_append_statement := by
  intro h
  have wf : ({} : Mem PyStr PyStr).WF := by
    have h : ∀ i, ({} : Mem PyStr PyStr).dict i = [] := by intro i; simp [Mem.dict, Mem.obj]
    refine ⟨fun i => ?_, fun i k r hr => ?_, fun i k i' k' r hr => ?_⟩
    · rw [h]; simp [Dict.keys]
    · rw [h] at hr; cases hr
    · rw [h] at hr; cases hr
  obtain ⟨k', v', vs, h1, h2, h3⟩ := h wideCodecs {} none {} _ 0 wf (by rfl) (.b b!"a") (.atom (.b b!"1")) _ (by rfl)
  have : k' = .b [0, 97] := by
    have : (queryConv wideCodecs ({} : Settings).defaultCharset).key (.b b!"a") = .ok (.b [0, 97]) := by rfl
    rw [this] at h1
    cases h1; rfl
  subst this
  have hn : (appendList (queryConv wideCodecs ({} : Settings).defaultCharset) 0 (.b b!"a") (.atom (.b b!"1"))
      (newQueryDict wideCodecs {} none true {}).2).2.abs 0 (.b [0, 97]) = none := by decide +kernel
  exact absurd (hn.symm.trans h3) (by simp)

/-! ## C110: what the changing methods return -/

theorem Works.get_lt {C : Conv κ α} {m : Mem κ α} {i : Nat} {k : κ} (w : Works C m i k) : i < m.dicts.length := w.1

/-- **C110**, `setdefault` of a `MultiValueDict` or a mutable `QueryDict` returns the last value of the
key, after storing the default if the key was absent. -/
theorem C110_setdefault_partial {C : Conv κ α} {m : Mem κ α} {i : Nat} {k : κ} (w : Works C m i k)
    (v : Val α) (hv : (m.obj i).cls = .query → C.val v = .ok v) :
    match m.abs i k with
    | none => (setDefault C i k v m).1 = .ok v
    | some [] => ∃ r m', setDefault C i k v m = ((.ok (.list r), m') : Res (Mem κ α) (Val α)) ∧ m'.elems r = []
    | some (x :: xs) => setDefault C i k v m = (.ok ((x :: xs).getLast (by simp)), m) := by
  have hA := w.assert
  have e : setDefault C i k v m = setDefaultBase C i k v m := by
    unfold setDefault
    rw [hA]
    rcases w.2 with h | ⟨h1, -, h3⟩
    · simp [h]
    · simp [h1, h3, hv h1]
  have hp : setItem C i k v m = (.ok (), m.put i k [v]) := by
    unfold setItem
    rcases w.2 with h | ⟨h1, -, h3⟩
    · simp [h]
    · simp [h1, hA, h3, hv h1]
  rw [e]
  unfold setDefaultBase
  rw [contains_iff]
  have hc := w.not_immutable
  cases hg : (m.dict i).get? k with
  | none =>
    have ha : m.abs i k = none := by unfold Mem.abs; simp [hg]
    simp only [ha, Option.isSome_none, Bool.false_eq_true, if_false, hp]
    have hg' : ((m.put i k [v]).dict i).get? k = some m.lists.length := by
      rw [dict_put, if_pos ⟨rfl, w.1⟩, Dict.get?_set, if_pos rfl]
    have hl : ((m.put i k [v]).elems m.lists.length).getLast? = some v := by rw [elems_put_new]; rfl
    have hc' : ((m.put i k [v]).obj i).cls ≠ .immutable := by
      simp only [Mem.put, Mem.alloc, obj_setDict]
      exact hc
    simp only [getItem, hg', hl, if_neg hc']
  | some r =>
    have ha : m.abs i k = some (m.elems r) := by unfold Mem.abs; simp [hg]
    simp only [ha, Option.isSome_some, if_true, getItem, hg]
    cases he : m.elems r with
    | nil =>
      simp only [List.getLast?_nil]
      have hc' : ((m.alloc []).2.obj i).cls ≠ .immutable := hc
      refine ⟨m.lists.length, (m.alloc []).2, ?_, elems_alloc_new _ _⟩
      change (Except.ok (if ((m.alloc []).2.obj i).cls = .immutable then Val.none else .list m.lists.length), _) = _
      rw [if_neg hc']
    | cons x xs =>
      simp only [List.getLast?_eq_some_getLast (l := x :: xs) (by simp), if_neg hc]

/-- **C110**, `setlistdefault` of a `MultiValueDict` or a mutable `QueryDict` returns the list that the
dictionary holds: any change of it is a change of the dictionary at that key and nowhere else. -/
theorem C110_setlistdefault_partial {C : Conv κ α} {m : Mem κ α} (wf : m.WF) {i : Nat} {k : κ} (w : Works C m i k)
    (p x : Val α) (m' : Mem κ α) (h : setListDefault C i k p m = (.ok x, m')) :
    ∃ r, x = .list r ∧ m'.abs i k = some (m'.elems r) ∧
      ∀ xs, (m'.write r xs).abs i = (m'.abs i).upd k (some xs) ∧ ∀ j, j ≠ i → (m'.write r xs).abs j = m'.abs j := by
  have wf' : m'.WF := by
    have := (setListDefault_touch C i k p m wf).1
    rw [h] at this
    exact (this.kept wf).wf
  have hs : ∀ m1, ensureList C i k p m = (.ok (), m1) → ((m1.dict i).get? k).isSome ∧ (m1.obj i).cls ≠ .immutable := by
    intro m1 e
    have put : ∀ (m2 : Mem κ α) (xs : List (Val α)), i < m2.dicts.length → (m2.obj i).cls ≠ .immutable →
        (((m2.put i k xs).dict i).get? k).isSome ∧ ((m2.put i k xs).obj i).cls ≠ .immutable := by
      intro m2 xs hi hc
      refine ⟨by rw [dict_put, if_pos ⟨rfl, hi⟩, Dict.get?_set, if_pos rfl]; rfl, ?_⟩
      simp only [Mem.put, Mem.alloc, obj_setDict]
      exact hc
    have sl : ∀ (m2 : Mem κ α) (p : Val α), Works C m2 i k → setList C i k p m2 = (.ok (), m1) →
        ((m1.dict i).get? k).isSome ∧ (m1.obj i).cls ≠ .immutable := by
      intro m2 p w2 e
      have hc := w2.not_immutable
      have hA2 := w2.assert
      unfold setList at e
      rcases w2.2 with h1 | ⟨h1, -, h3⟩
      · rw [h1] at e
        simp only [Prod.mk.injEq, true_and] at e
        subst e
        cases p <;> exact put _ _ w2.1 hc
      · rw [h1] at e
        simp only [hA2, h3] at e
        have fin : ∀ vs : List (Val α), (match convAll C vs with
            | .error e => (.error e, m2)
            | .ok vs => (.ok (), m2.put i k vs) : Res (Mem κ α) Unit) = (.ok (), m1) →
            ((m1.dict i).get? k).isSome ∧ (m1.obj i).cls ≠ .immutable := by
          intro vs e
          cases hca : convAll C vs with
          | error e' => rw [hca] at e; cases e
          | ok vs' =>
            rw [hca] at e
            simp only [Prod.mk.injEq, true_and] at e
            subst e
            exact put _ _ w2.1 hc
        cases p with
        | none => cases e
        | list r => exact fin _ e
        | atom a =>
          simp only at e
          cases hit : C.iter a with
          | error e' => rw [hit] at e; cases e
          | ok vs => rw [hit] at e; exact fin _ e
    unfold ensureList at e
    by_cases hc : m.contains i k
    · rw [if_pos hc] at e
      cases e
      exact ⟨hc, w.not_immutable⟩
    · rw [if_neg hc] at e
      cases p with
      | none =>
        simp only at e
        exact sl (m.alloc []).2 _ w e
      | list r => exact sl m _ w e
      | atom a => exact sl m _ w e
  unfold setListDefault at h
  rw [w.assert] at h
  simp only at h
  cases he : ensureList C i k p m with
  | mk a m1 =>
    rw [he] at h
    cases a with
    | error e => cases h
    | ok u =>
      obtain ⟨h1, h2⟩ := hs m1 he
      simp only [getListLive] at h
      cases hg : (m1.dict i).get? k with
      | none => rw [hg] at h1; cases h1
      | some r =>
        rw [hg] at h
        simp only [if_neg h2, Prod.mk.injEq, Except.ok.injEq] at h
        obtain ⟨rfl, rfl⟩ := h
        refine ⟨r, rfl, by unfold Mem.abs; simp [hg], fun xs => ⟨abs_write wf' hg xs, fun j hj => ?_⟩⟩
        refine abs_write_free (fun k' hk' => ?_) xs
        exact hj (wf'.inj _ _ _ _ _ hk' hg).1

/-- **C110**, `pop` returns the list the key had, and no dictionary holds it any more. -/
theorem C110_pop {m : Mem κ α} (wf : m.WF) {i : Nat} (hi : i < m.dicts.length)
    (hm : (m.obj i).cls = .query → (m.obj i).mutable = true) (k : κ) (dflt : Option (Val α)) :
    match m.abs i k with
    | some vs => ∃ r m', pop i k dflt m = ((.ok (.list r), m') : Res (Mem κ α) (Val α)) ∧ m'.elems r = vs ∧
        m'.abs i = (m.abs i).upd k none ∧ (∀ j, j ≠ i → m'.abs j = m.abs j) ∧ ∀ j k', (m'.dict j).get? k' ≠ some r
    | none => pop i k dflt m = ((match dflt with | some v => .ok v | none => .error .keyError), m) := by
  have hA : (if (m.obj i).cls = .query then m.assertMutable i else .ok ()) = .ok () := by
    split
    · rename_i h; unfold assertMutable; simp [h, hm h]
    · rfl
  unfold pop
  rw [hA]
  cases hg : (m.dict i).get? k with
  | none =>
    have ha : m.abs i k = none := by unfold Mem.abs; simp [hg]
    rw [ha]
    cases dflt <;> rfl
  | some r =>
    have ha : m.abs i k = some (m.elems r) := by unfold Mem.abs; simp [hg]
    rw [ha]
    refine ⟨r, _, rfl, rfl, abs_erase hi k, fun j hj => ?_, fun j k' h => ?_⟩
    · refine abs_congr ?_ fun _ _ _ => rfl
      rw [dict_setDict, if_neg (fun h => hj h.1.symm)]
    · rw [dict_setDict] at h
      split at h
      · rename_i hj
        obtain ⟨rfl, -⟩ := hj
        rw [Dict.get?_erase] at h
        split at h
        · cases h
        · rename_i hk
          exact hk (wf.inj _ _ _ _ _ hg h).2
      · rename_i hj
        exact hj ⟨(wf.inj _ _ _ _ _ hg h).1, hi⟩

/-- **C110**, `popitem` returns a key with the list it had and removes exactly that key; of an empty
dictionary it is a `KeyError`. -/
theorem C110_popitem {m : Mem κ α} (wf : m.WF) {i : Nat} (hi : i < m.dicts.length)
    (hm : (m.obj i).cls = .query → (m.obj i).mutable = true) (n : Nat) :
    ((∀ k, m.abs i k = none) ∧ popItem i n m = (.error .keyError, m)) ∨
    ∃ k r m', popItem i n m = ((.ok (k, .list r), m') : Res (Mem κ α) (κ × Val α)) ∧ m.abs i k = some (m'.elems r) ∧
      m'.abs i = (m.abs i).upd k none ∧ (∀ j, j ≠ i → m'.abs j = m.abs j) := by
  have hA : (if (m.obj i).cls = .query then m.assertMutable i else .ok ()) = .ok () := by
    split
    · rename_i h; unfold assertMutable; simp [h, hm h]
    · rfl
  unfold popItem
  rw [hA]
  cases hd : m.dict i with
  | nil =>
    refine .inl ⟨fun k => by unfold Mem.abs; rw [hd]; rfl, ?_⟩
    simp
  | cons p t =>
    have hl : n % (p :: t).length < (p :: t).length := Nat.mod_lt _ (by simp)
    simp only [List.getElem?_eq_getElem hl]
    generalize hq : (p :: t)[n % (p :: t).length] = q
    obtain ⟨k, r⟩ := q
    have hmem : (k, r) ∈ m.dict i := by rw [hd, ← hq]; exact List.getElem_mem hl
    have hg := Dict.get?_of_mem (wf.nodup i) hmem
    refine .inr ⟨k, r, m.setDict i ((m.dict i).erase k), by rw [← hd], ?_, abs_erase hi k, fun j hj => ?_⟩
    · unfold Mem.abs; rw [hg]; rfl
    · refine abs_congr ?_ fun _ _ _ => rfl
      rw [dict_setDict, if_neg (fun h => hj h.1.symm)]

/-- A mutable `QueryDict`. -/
def queryOpen : Mem Bytes Bytes :=
  { lists := [[.atom b!"1", .atom b!"2"]], dicts := [{ cls := .query, mutable := true, data := [(b!"a", 0)] }] }

/-- A mutable `ImmutableMultiValueDict`. -/
def immOpen : Mem Bytes Bytes :=
  { lists := [[.atom b!"1", .atom b!"2"]], dicts := [{ cls := .immutable, mutable := true, data := [(b!"a", 0)] }] }

theorem immOpen_wf : immOpen.WF := by
  have h : ∀ i, immOpen.dict i = if i = 0 then [(b!"a", 0)] else [] := by
    intro i
    rcases i with _ | i <;> simp [immOpen, Mem.dict, Mem.obj]
  refine ⟨fun i => ?_, fun i k r hr => ?_, fun i k i' k' r hr hr' => ?_⟩
  · rw [h]; split <;> simp [Dict.keys]
  · rw [h] at hr
    split at hr
    · simp only [Dict.get?] at hr
      split at hr
      · cases hr; decide
      · cases hr
    · cases hr
  · rw [h] at hr hr'
    split at hr
    · split at hr'
      · rename_i h1 h2
        simp only [Dict.get?] at hr hr'
        split at hr
        · rename_i h3
          split at hr'
          · rename_i h4; exact ⟨h1.trans h2.symm, h3.symm.trans h4⟩
          · cases hr'
        · cases hr
      · cases hr'
    · cases hr

example : (setDefault idConv 0 b!"a" (.atom b!"3") queryOpen).1.toOption = some (.atom b!"2") ∧
    (setDefault idConv 0 b!"b" (.atom b!"3") queryOpen).1.toOption = some (.atom b!"3") ∧
    (setListDefault idConv 0 b!"a" .none queryOpen).1.toOption = some (.list 0) ∧
    (pop 0 b!"a" none queryOpen).1.toOption = some (.list 0) ∧
    (popItem 0 5 queryOpen).1.toOption = some (b!"a", .list 0) := by
  decide +kernel

/-- C110 for all three classes: after `setdefault` returns, what it returned is what `self[key]` is. -/
def C110_statement : Prop :=
  ∀ (κ α : Type) (_ : DecidableEq κ) (C : Conv κ α) (m m' : Mem κ α) (i : Nat) (k : κ) (v x : Val α), m.WF →
    i < m.dicts.length → setDefault C i k v m = (.ok x, m') → ∀ y ys, m'.abs i k = some (y :: ys) →
      x = (y :: ys).getLast (by simp)

/-- It is false of `ImmutableMultiValueDict`: its `setdefault` returns `None` always. -/
theorem C110_refuted : ¬ C110_statement := by
  intro h
  have := h Bytes Bytes inferInstance idConv immOpen _ 0 b!"a" (.atom b!"3") .none immOpen_wf (by decide) (by rfl)
    (.atom b!"1") [.atom b!"2"] (by decide +kernel)
  revert this
  decide

end Verif
