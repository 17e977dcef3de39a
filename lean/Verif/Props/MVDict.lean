import Mathlib.Data.List.Forall2
import Verif.Proofs.MVDict
import Verif.Model.ImmList
/-!
# The dictionaries (C01-C06) and the immutable list (C66)
-/

namespace Verif
open Spec Mem
variable {κ α : Type} [DecidableEq κ]

/-! ## C01: a map from keys to lists of values -/

/-- A value, or `dflt` in place of a list without elements. -/
def orDefault (elems : Nat → List (Val α)) (dflt : Val α) : Val α → Val α
  | .list r => if (elems r).length = 0 then dflt else .list r
  | v => v

/-- The lookups answer as the abstract map `A` says. -/
structure Answers (m : Mem κ α) (i : Nat) (A : AMap κ α) : Prop where
  contains : ∀ k, m.contains i k = (A k).isSome
  getlist : ∀ (k : κ) (dflt : Val α),
    match A k, dflt with
    | some vs, _ => ∃ r m', getList i k dflt m = ((.ok (.list r), m') : Res (Mem κ α) (Val α)) ∧ m'.elems r = vs
    | none, .none => ∃ r m', getList i k dflt m = ((.ok (.list r), m') : Res (Mem κ α) (Val α)) ∧ m'.elems r = []
    | none, v => getList i k dflt m = ((.ok v, m) : Res (Mem κ α) (Val α))
  getitem : ∀ k,
    match A k with
    | none => getItem i k m = (.error .multiValueDictKeyError, m)
    | some [] => ∃ r m', getItem i k m = ((.ok (.list r), m') : Res (Mem κ α) (Val α)) ∧ m'.elems r = []
    | some (v :: vs) => getItem i k m = (.ok ((v :: vs).getLast (by simp)), m)
  get : ∀ k dflt,
    match A k with
    | none => Mem.get i k dflt m = (.ok dflt, m)
    | some [] => (Mem.get i k dflt m).1 = .ok dflt
    | some (v :: vs) =>
      Mem.get i k dflt m =
        (.ok (orDefault m.elems dflt ((v :: vs).getLast (by simp))), m)

theorem answers_abs (m : Mem κ α) (i : Nat) : Answers m i (m.abs i) := by
  have gi : ∀ k,
      match m.abs i k with
      | none => getItem i k m = (.error .multiValueDictKeyError, m)
      | some [] => getItem i k m = (.ok (.list (m.alloc []).1), (m.alloc []).2)
      | some (v :: vs) => getItem i k m = (.ok ((v :: vs).getLast (by simp)), m) := by
    intro k
    unfold Mem.abs getItem
    cases hg : (m.dict i).get? k with
    | none => rfl
    | some r =>
      simp only [Option.map_some]
      cases he : m.elems r with
      | nil => rfl
      | cons v vs => simp only [List.getLast?_eq_some_getLast (l := v :: vs) (by simp)]
  refine ⟨contains_iff m i, fun k dflt => ?_, fun k => ?_, fun k dflt => ?_⟩
  · unfold Mem.abs getList
    cases hg : (m.dict i).get? k with
    | some r => simp only [Option.map_some]; exact ⟨_, _, rfl, elems_alloc_new _ _⟩
    | none =>
      cases dflt with
      | none => exact ⟨_, _, rfl, elems_alloc_new _ _⟩
      | list r => rfl
      | atom a => rfl
  · have := gi k
    generalize m.abs i k = z at *
    match z with
    | none => exact this
    | some [] => exact ⟨_, _, this, elems_alloc_new _ _⟩
    | some (v :: vs) => exact this
  · have := gi k
    generalize m.abs i k = z at *
    match z with
    | none => simp only at this ⊢; unfold Mem.get; rw [this]
    | some [] =>
      simp only at this ⊢
      unfold Mem.get
      rw [this]
      have he : (m.alloc []).2.isEmptyList (.list (m.alloc []).1) = true := by
        unfold isEmptyList
        have := elems_alloc_new m []
        simp only [Mem.alloc] at *
        simp [this]
      simp only [he, if_true]
    | some (v :: vs) =>
      simp only at this ⊢
      unfold Mem.get
      rw [this]
      simp only
      cases (v :: vs).getLast (by simp) with
      | list r =>
        simp only [isEmptyList, orDefault, List.isEmpty_iff, List.length_eq_zero_iff]
        split <;> rfl
      | _ => rfl

/-- Make the calls one after the other, carrying on after an exception. -/
def runCalls (C : Conv κ α) (i : Nat) : List (Call κ α) → Mem κ α → Mem κ α
  | [], m => m
  | c :: cs, m => runCalls C i cs (call C i c m).2

/-- The same on the abstract map; the memory serves only to look at the arguments of the calls. -/
def specCalls (C : Conv κ α) (i : Nat) : List (Call κ α) → Mem κ α → AMap κ α → AMap κ α
  | [], _, A => A
  | c :: cs, m, A =>
    specCalls C i cs (call C i c m).2
      (match c.effect m.elems m.abs A with
        | .ok A' => A'
        | .error _ => A)

theorem runCalls_abs (C : Conv κ α) (i : Nat) (cs : List (Call κ α)) (m : Mem κ α) (wf : m.WF)
    (hi : i < m.dicts.length) (hc : (m.obj i).cls = .plain) :
    (runCalls C i cs m).WF ∧ (∀ j, j ≠ i → (runCalls C i cs m).abs j = m.abs j) ∧
    (runCalls C i cs m).abs i = specCalls C i cs m (m.abs i) := by
  induction cs generalizing m with
  | nil => exact ⟨wf, fun _ _ => rfl, rfl⟩
  | cons c cs ih =>
    have kp := (call_touch C i c m wf).kept wf
    obtain ⟨h1, h2, h3⟩ := ih (call C i c m).2 kp.wf (by rw [kp.dicts]; exact hi) (by rw [kp.cls]; exact hc)
    refine ⟨h1, fun j hj => (h2 j hj).trans (kp.abs j hj), ?_⟩
    unfold runCalls specCalls
    rw [h3]
    congr 1
    have := call_works (C := C) wf hi hc c
    split at this
    · rename_i he; rw [he]; exact this.2
    · rename_i he; rw [he]; exact this.2

/-- C01.  In a memory where no list is held twice, make any sequence of calls on a
`MultiValueDict`: every lookup then answers as the abstract map to which the same calls were
applied, every call raises exactly when the abstract one does, and other dictionaries have not
changed. -/
theorem C01_map (C : Conv κ α) (i : Nat) (m : Mem κ α) (wf : m.WF)
    (hi : i < m.dicts.length) (hc : (m.obj i).cls = .plain) (cs : List (Call κ α)) :
    Answers (runCalls C i cs m) i (specCalls C i cs m (m.abs i)) ∧
    (∀ c, (call C i c (runCalls C i cs m)).1 =
      (c.effect (runCalls C i cs m).elems (runCalls C i cs m).abs (specCalls C i cs m (m.abs i))).map fun _ => ()) ∧
    (∀ j, j ≠ i → Answers (runCalls C i cs m) j (m.abs j)) := by
  obtain ⟨h1, h2, h3⟩ := runCalls_abs C i cs m wf hi hc
  have hl : ∀ (cs : List (Call κ α)) (m : Mem κ α), m.WF → (runCalls C i cs m).dicts.length = m.dicts.length ∧
      ((runCalls C i cs m).obj i).cls = (m.obj i).cls := by
    intro cs
    induction cs with
    | nil => intro m _; exact ⟨rfl, rfl⟩
    | cons c cs ih =>
      intro m wf
      have kp := (call_touch C i c m wf).kept wf
      have := ih _ kp.wf
      exact ⟨this.1.trans kp.dicts, this.2.trans (kp.cls i)⟩
  refine ⟨h3 ▸ answers_abs _ _, fun c => ?_, fun j hj => (h2 j hj) ▸ answers_abs _ _⟩
  have := call_works (C := C) h1 (by rw [(hl cs m wf).1]; exact hi) (by rw [(hl cs m wf).2]; exact hc) c
  rw [h3] at this
  split at this
  · rename_i he; rw [he]; exact this.1
  · rename_i he; rw [he]; exact this.1

/-- The keys a call names; `none` is all of them. -/
def Call.touches : Call κ α → Option (List κ)
  | .set k _ | .setlist k _ | .setdefault k _ | .setlistdefault k _ | .append k _ | .del k | .pop k _ => some [k]
  | .update .absent kw => some (kw.map Prod.fst)
  | .update (.mapping items) kw => some (items.map Prod.fst ++ kw.map Prod.fst)
  | _ => none

theorem addAll_other (items : List (κ × Val α)) (A : AMap κ α) (k : κ) (h : k ∉ items.map Prod.fst) :
    A.addAll items k = A k := by
  induction items generalizing A with
  | nil => rfl
  | cons p t ih =>
    simp only [List.map_cons, List.mem_cons, not_or] at h
    change (A.add p.1 [p.2]).addAll t k = _
    rw [ih _ h.2]
    simp [AMap.add, AMap.upd, h.1]

/-- C01, last clause: a call does not change what the dictionary says about keys it does not name. -/
theorem C01_other_keys (C : Conv κ α) (i : Nat) (m : Mem κ α) (wf : m.WF)
    (hi : i < m.dicts.length) (hc : (m.obj i).cls = .plain) (c : Call κ α) (ks : List κ)
    (hk : Call.touches c = some ks) (k : κ) (hn : k ∉ ks) :
    (call C i c m).2.abs i k = m.abs i k := by
  have h := call_works (C := C) wf hi hc c
  have upd : ∀ (A : AMap κ α) k' x, k ≠ k' → A.upd k' x k = A k := fun A k' x h => by simp [AMap.upd, h]
  cases c with
  | set k' v => cases hk; simp at hn; simp only [Call.effect] at h; rw [h.2, upd _ _ _ hn]
  | setlist k' v => cases hk; simp at hn; simp only [Call.effect] at h; rw [h.2, upd _ _ _ hn]
  | setdefault k' v => cases hk; simp at hn; simp only [Call.effect] at h; rw [h.2]; split; rfl; rw [upd _ _ _ hn]
  | setlistdefault k' v => cases hk; simp at hn; simp only [Call.effect] at h; rw [h.2]; split; rfl; rw [upd _ _ _ hn]
  | append k' v => cases hk; simp at hn; simp only [Call.effect] at h; rw [h.2]; exact upd _ _ _ hn
  | del k' =>
    cases hk; simp at hn; simp only [Call.effect] at h
    split at h
    · rename_i he; split at he <;> cases he; rw [h.2, upd _ _ _ hn]
    · rw [h.2]
  | pop k' d =>
    cases hk; simp at hn; simp only [Call.effect] at h
    split at h
    · rename_i he
      split at he
      · cases he; rw [h.2, upd _ _ _ hn]
      · split at he <;> cases he; rw [h.2]
    · rw [h.2]
  | clear => cases hk
  | update arg kw =>
    cases arg with
    | absent => cases hk; simp only [Call.effect] at h; rw [h.2, addAll_other _ _ _ hn]
    | other => cases hk
    | mvd j => cases hk
    | mapping items =>
      cases hk
      simp only [List.mem_append, not_or] at hn
      simp only [Call.effect] at h
      rw [h.2, addAll_other _ _ _ hn.2, addAll_other _ _ _ hn.1]

/-- Keys and values taken as they are; strings of characters are not iterated over. -/
def idConv : Conv Bytes Bytes := ⟨.ok, .ok, fun s => .ok (s.map fun c => .atom [c])⟩

/-- A memory with one empty dictionary, and a sequence of calls with a list in use. -/
def sampleMem : Mem Bytes Bytes := { lists := [[.atom b!"Adrian", .atom b!"Simon"]], dicts := [{}] }

theorem sampleMem_wf : sampleMem.WF := by
  have h : ∀ i, sampleMem.dict i = [] := by
    intro i
    rcases i with _ | i <;> simp [sampleMem, Mem.dict, Mem.obj]
  refine ⟨fun i => ?_, fun i k r hr => ?_, fun i k i' k' r hr => ?_⟩
  · rw [h]; simp [Dict.keys]
  · rw [h] at hr; cases hr
  · rw [h] at hr; cases hr

example :
    let m := runCalls idConv 0 [.setlist b!"name" (.list 0), .append b!"name" (.atom b!"x"), .set b!"p" (.atom b!"d"),
      .update (.mvd 0) [(b!"q", .atom b!"z")], .del b!"nope", .pop b!"p" none] sampleMem
    (m.abs 0 b!"name" = some (List.replicate 2 [.atom b!"Adrian", .atom b!"Simon", .atom b!"x"]).flatten) ∧
    m.abs 0 b!"p" = none ∧ (getItem 0 b!"q" m).1.toOption = some (.atom b!"z") := by
  decide +kernel

/-! ## C02: what `getlist` and `copy` return is not connected to the dictionary -/

/-- Anything a client can do: call any method of any dictionary, look anything up, make lists and
dictionaries, copy, and change any list in any way. -/
inductive Later (C : Conv κ α) : Mem κ α → Mem κ α → Prop where
  | refl (m) : Later C m m
  | call {m m'} (h : Later C m m') (i c) : Later C m (Mem.call C i c m').2
  | popitem {m m'} (h : Later C m m') (i n) : Later C m (popItem i n m').2
  | getitem {m m'} (h : Later C m m') (i k) : Later C m (getItem i k m').2
  | get {m m'} (h : Later C m m') (i k v) : Later C m (Mem.get i k v m').2
  | getlist {m m'} (h : Later C m m') (i k v) : Later C m (getList i k v m').2
  | newList {m m'} (h : Later C m m') (xs) : Later C m (m'.alloc xs).2
  | newDict {m m'} (h : Later C m m') (cls b) : Later C m (m'.newDict cls b)
  | copy {m m'} (h : Later C m m') (i) : Later C m (Mem.copy i m').2
  | change {m m'} (h : Later C m m') (r xs) : Later C m (m'.write r xs)

theorem copy_spec (m : Mem κ α) (wf : m.WF) (i : Nat) :
    (Mem.copy i m).2.WF ∧ (∀ j, j < m.dicts.length → (Mem.copy i m).2.abs j = m.abs j) ∧
    m.lists.length ≤ (Mem.copy i m).2.lists.length ∧
    (∀ r, r < m.lists.length → (∀ j k, (m.dict j).get? k ≠ some r) → ∀ j k, ((Mem.copy i m).2.dict j).get? k ≠ some r) ∧
    ((m.obj i).cls ≠ .query → (Mem.copy i m).1 = .ok m.dicts.length ∧ (Mem.copy i m).2.abs m.dicts.length = m.abs i) := by
  unfold Mem.copy
  split
  · rename_i h; exact ⟨wf, fun _ _ => rfl, Nat.le_refl _, fun _ _ h => h, fun h' => absurd h h'⟩
  · have wn := wf.newDict (m.obj i).cls false
    obtain ⟨h1, h2⟩ := copyItems_works m.dicts.length (m.dict i) (wf.nodup i) (m.newDict (m.obj i).cls) wn
      (by simp [Mem.newDict]) (fun k r h => wf.valid i k r (Dict.get?_of_mem (wf.nodup i) h))
    have kp := h1.kept wn
    refine ⟨kp.wf, fun j hj => ?_, kp.lists, fun r hr hf => ?_, fun _ => ⟨rfl, ?_⟩⟩
    · exact (kp.abs j (by omega)).trans (newDict_abs ..)
    · exact kp.free r hr (fun j k => by rw [newDict_dict]; exact hf j k)
    · funext k
      simp only
      rw [h2]
      unfold Mem.abs
      have hz : (m.newDict (m.obj i).cls).dict m.dicts.length = [] := by
        rw [newDict_dict]; simp [Mem.dict, Mem.obj]
      rw [hz]
      cases hg : (m.dict i).get? k <;> rfl

/-- What holds of every later memory. -/
theorem Later.keeps {C : Conv κ α} {m m' : Mem κ α} (h : Later C m m') (wf : m.WF) :
    m'.WF ∧ m.lists.length ≤ m'.lists.length ∧ m.dicts.length ≤ m'.dicts.length ∧
    ∀ r, r < m.lists.length → (∀ j k, (m.dict j).get? k ≠ some r) → ∀ j k, (m'.dict j).get? k ≠ some r := by
  have lift : ∀ {m' m'' : Mem κ α} {i : Nat}, (m'.WF ∧ m.lists.length ≤ m'.lists.length ∧ m.dicts.length ≤ m'.dicts.length ∧
      ∀ r, r < m.lists.length → (∀ j k, (m.dict j).get? k ≠ some r) → ∀ j k, (m'.dict j).get? k ≠ some r) →
      (m'.WF → Touch i m' m'') →
      (m''.WF ∧ m.lists.length ≤ m''.lists.length ∧ m.dicts.length ≤ m''.dicts.length ∧
      ∀ r, r < m.lists.length → (∀ j k, (m.dict j).get? k ≠ some r) → ∀ j k, (m''.dict j).get? k ≠ some r) := by
    rintro m' m'' i ⟨h1, h2, h3, h4⟩ t
    have kp := (t h1).kept h1
    exact ⟨kp.wf, Nat.le_trans h2 kp.lists, by rw [kp.dicts]; exact h3,
      fun r hr hf => kp.free r (by omega) (h4 r hr hf)⟩
  induction h with
  | refl => exact ⟨wf, Nat.le_refl _, Nat.le_refl _, fun _ _ h => h⟩
  | call h i c ih => exact lift ih (call_touch C i c _)
  | popitem h i n ih => exact lift ih (fun _ => popItem_touch i n _)
  | getitem h i k ih => exact lift ih (fun _ => getItem_touch i k _)
  | get h i k v ih => exact lift ih (fun _ => get_touch i k v _)
  | getlist h i k v ih => exact lift ih (fun _ => getList_touch i k v _)
  | newList h xs ih => exact lift (i := 0) ih (fun _ => .alloc _ _)
  | newDict h cls b ih =>
    obtain ⟨h1, h2, h3, h4⟩ := ih
    exact ⟨h1.newDict _ _, h2, by simp [Mem.newDict]; omega, fun r hr hf j k => by rw [newDict_dict]; exact h4 r hr hf j k⟩
  | copy h i ih =>
    obtain ⟨h1, h2, h3, h4⟩ := ih
    obtain ⟨c1, -, c3, c4, -⟩ := copy_spec _ h1 i
    refine ⟨c1, Nat.le_trans h2 c3, ?_, fun r hr hf => c4 r (by omega) (h4 r hr hf)⟩
    rename_i m'
    unfold Mem.copy
    split
    · exact h3
    · have hl : ∀ (c : Nat) (d : Dict κ Nat) (m : Mem κ α), (copyItems c d m).dicts.length = m.dicts.length := by
        intro c d
        induction d with
        | nil => intro m; rfl
        | cons p t ih => intro m; obtain ⟨k, r⟩ := p; unfold copyItems; rw [ih]; simp [Mem.put, Mem.alloc, setDict]
      simp only [hl, Mem.newDict, List.length_append]
      omega
  | change h r xs ih =>
    obtain ⟨h1, h2, h3, h4⟩ := ih
    refine ⟨⟨h1.nodup, fun i k r hr => ?_, h1.inj⟩, by simp [Mem.write]; omega, h3, h4⟩
    have := h1.valid i k r hr
    simp [Mem.write]; omega

/-- C02 for `getlist`: whatever happens afterwards, changing the returned list in any way changes
what no dictionary answers.  (For an absent key the caller's default is returned as it is.) -/
theorem C02_getlist (C : Conv κ α) (m : Mem κ α) (wf : m.WF) (i : Nat) (k : κ) (dflt : Val α) (r : Nat) (m' : Mem κ α)
    (h : getList i k dflt m = (.ok (.list r), m')) (hk : (m.abs i k).isSome ∨ dflt = .none)
    (m'' : Mem κ α) (hl : Later C m' m'') (xs : List (Val α)) (j : Nat) :
    Answers (m''.write r xs) j (m''.abs j) := by
  have ht := (getList_touch i k dflt m).kept wf
  rw [h] at ht
  have hr : r = m.lists.length ∧ m'.lists.length = m.lists.length + 1 := by
    unfold getList at h
    unfold Mem.abs at hk
    cases hg : (m.dict i).get? k with
    | some r' => simp only [hg, Mem.alloc] at h; cases h; simp
    | none =>
      rw [hg] at hk
      rcases hk with hk | rfl
      · simp at hk
      · simp only [hg, Mem.alloc] at h; cases h; simp
  have hf : ∀ j k, (m'.dict j).get? k ≠ some r := by
    intro j k hc
    have hd : m'.dict j = m.dict j := by
      unfold getList at h
      split at h
      · cases h; rfl
      · split at h <;> cases h <;> rfl
    rw [hd] at hc
    have := wf.valid _ _ _ hc
    omega
  obtain ⟨-, -, -, h4⟩ := hl.keeps ht.wf
  rw [← abs_write_free (m := m'') (i := j) (r := r) (fun k => h4 r (by omega) hf j k) xs]
  exact answers_abs _ _

/-- C02 for `copy`: the copy has the same contents.  Whatever happens afterwards, no call on one of
the two dictionaries and no change of a list inside one of them changes what the other answers. -/
theorem C02_copy (C : Conv κ α) (m : Mem κ α) (wf : m.WF) (i : Nat) (hi : i < m.dicts.length) (c : Nat) (m' : Mem κ α)
    (h : Mem.copy i m = (.ok c, m')) :
    Answers m' c (m.abs i) ∧ Answers m' i (m.abs i) ∧
    ∀ m'', Later C m' m'' → ∀ a b, (a = i ∧ b = c) ∨ (a = c ∧ b = i) →
      (∀ f, Answers (Mem.call C a f m'').2 b (m''.abs b)) ∧
      (∀ n, Answers (popItem a n m'').2 b (m''.abs b)) ∧
      (∀ k r xs, (m''.dict a).get? k = some r → Answers (m''.write r xs) b (m''.abs b)) := by
  obtain ⟨c1, c2, c3, c4, c5⟩ := copy_spec m wf i
  have hq : (m.obj i).cls ≠ .query := by
    intro hq; unfold Mem.copy at h; rw [if_pos hq] at h; cases h
  rw [h] at c1 c2 c3 c4 c5
  obtain ⟨c6, c7⟩ := c5 hq
  cases c6
  refine ⟨c7 ▸ answers_abs _ _, (c2 i hi) ▸ answers_abs _ _, fun m'' hl a b hab => ?_⟩
  obtain ⟨w, -⟩ := hl.keeps c1
  have hne : b ≠ a := by omega
  refine ⟨fun f => ?_, fun n => ?_, fun k r xs hr => ?_⟩
  · rw [← ((call_touch C a f m'' w).kept w).abs b hne]; exact answers_abs _ _
  · rw [← ((popItem_touch a n m'').kept w).abs b hne]; exact answers_abs _ _
  · rw [← abs_write_free (m := m'') (i := b) (r := r) (fun k' hk' => hne (w.inj _ _ _ _ _ hk' hr).1) xs]
    exact answers_abs _ _

/-- A dictionary and its copy, then changes to both. -/
example :
    let m := runCalls idConv 0 [.setlist b!"a" (.list 0)] sampleMem
    let m' := (Mem.copy 0 m).2
    let m'' := runCalls idConv 1 [.append b!"a" (.atom b!"x"), .clear, .set b!"a" (.atom b!"y")] m'
    (Mem.copy 0 m).1.toOption = some 1 ∧
    m''.abs 0 b!"a" = some [.atom b!"Adrian", .atom b!"Simon"] ∧ m''.abs 1 b!"a" = some [.atom b!"y"] := by
  decide +kernel

/-! ## C03: `update` -/

/-- C03.  `d.update(other)` appends `other`'s lists; `other` may be `d` itself. -/
theorem C03_update_mvd (C : Conv κ α) (i j : Nat) (m : Mem κ α) (wf : m.WF)
    (hi : i < m.dicts.length) (hc : (m.obj i).cls = .plain) (k : κ) :
    (Mem.update C i (.mvd j) [] m).1 = .ok () ∧
    (Mem.update C i (.mvd j) [] m).2.abs i k =
      match m.abs i k, m.abs j k with
      | some xs, some ys => some (xs ++ ys)
      | none, some ys => some ys
      | x, none => x := by
  have h := call_works (C := C) wf hi hc (.update (.mvd j) [])
  simp only [Call.effect, call] at h
  refine ⟨h.1, ?_⟩
  rw [h.2]
  change AMap.join _ _ k = _
  unfold AMap.join
  cases m.abs i k <;> cases m.abs j k <;> rfl

/-- C03 for an ordinary dictionary, whose keys are distinct: one value is appended for each key. -/
theorem C03_update_dict (C : Conv κ α) (i : Nat) (items : Dict κ (Val α)) (m : Mem κ α) (wf : m.WF)
    (hi : i < m.dicts.length) (hc : (m.obj i).cls = .plain) (hn : items.keys.Nodup) (k : κ) :
    (Mem.update C i (.mapping items) [] m).1 = .ok () ∧
    (Mem.update C i (.mapping items) [] m).2.abs i k =
      match items.get? k with
      | some v => some ((m.abs i k).getD [] ++ [v])
      | none => m.abs i k := by
  have h := call_works (C := C) wf hi hc (.update (.mapping items) [])
  simp only [Call.effect, call] at h
  refine ⟨h.1, ?_⟩
  rw [h.2]
  change AMap.addAll (m.abs i) items k = _
  generalize m.abs i = A
  clear h
  induction items generalizing A with
  | nil => rfl
  | cons p t ih =>
    obtain ⟨k', v⟩ := p
    simp only [Dict.keys, List.map_cons, List.nodup_cons] at hn
    change (A.add k' [v]).addAll t k = _
    unfold Dict.get?
    by_cases hk : k' = k
    · subst hk
      rw [if_pos rfl, addAll_other _ _ _ hn.1]
      simp [AMap.add, AMap.upd]
    · rw [if_neg hk, ih hn.2]
      have : (A.add k' [v]) k = A k := by simp [AMap.add, AMap.upd, Ne.symm hk]
      rw [this]

/-- C03, last clause: whatever was stored is still there, at the same place. -/
theorem C03_keeps (C : Conv κ α) (i : Nat) (arg : UpdArg κ α) (kw : List (κ × Val α)) (m : Mem κ α) (wf : m.WF)
    (hi : i < m.dicts.length) (hc : (m.obj i).cls = .plain) (k : κ) (xs : List (Val α)) (h : m.abs i k = some xs) :
    ∃ ys, (Mem.update C i arg kw m).2.abs i k = some (xs ++ ys) := by
  have add : ∀ (items : List (κ × Val α)) (A : AMap κ α) xs, A k = some xs → ∃ ys, A.addAll items k = some (xs ++ ys) := by
    intro items
    induction items with
    | nil => intro A xs h; exact ⟨[], by simpa [AMap.addAll] using h⟩
    | cons p t ih =>
      intro A xs h
      by_cases hk : k = p.1
      · obtain ⟨ys, hy⟩ := ih (A.add p.1 [p.2]) (xs ++ [p.2]) (by subst hk; simp [AMap.add, AMap.upd, h])
        exact ⟨[p.2] ++ ys, by rw [← List.append_assoc]; exact hy⟩
      · exact ih (A.add p.1 [p.2]) xs (by simp [AMap.add, AMap.upd, hk, h])
  have hw := call_works (C := C) wf hi hc (.update arg kw)
  simp only [call] at hw
  cases arg with
  | absent => simp only [Call.effect] at hw; rw [hw.2]; exact add _ _ _ h
  | other => simp only [Call.effect] at hw; rw [hw.2]; exact ⟨[], by simpa using h⟩
  | mapping items =>
    simp only [Call.effect] at hw
    rw [hw.2]
    obtain ⟨ys, hy⟩ := add items _ _ h
    obtain ⟨zs, hz⟩ := add kw _ _ hy
    exact ⟨ys ++ zs, by rw [hz]; simp⟩
  | mvd j =>
    simp only [Call.effect] at hw
    rw [hw.2]
    have : ∃ ys, (m.abs i).join (m.abs j) k = some (xs ++ ys) := by
      unfold AMap.join
      cases m.abs j k with
      | none => exact ⟨[], by simpa using h⟩
      | some ys => exact ⟨ys, by simp [h]⟩
    obtain ⟨ys, hy⟩ := this
    obtain ⟨zs, hz⟩ := add kw _ _ hy
    exact ⟨ys ++ zs, by rw [hz]; simp⟩

example :
    let m := runCalls idConv 0 [.setlist b!"a" (.list 0), .set b!"b" (.atom b!"1")] (sampleMem.newDict .plain)
    let m := runCalls idConv 1 [.set b!"a" (.atom b!"2"), .set b!"c" (.atom b!"3")] m
    let m' := (Mem.update idConv 0 (.mvd 1) [] m).2
    m'.abs 0 b!"a" = some [.atom b!"Adrian", .atom b!"Simon", .atom b!"2"] ∧
    m'.abs 0 b!"b" = some [.atom b!"1"] ∧ m'.abs 0 b!"c" = some [.atom b!"3"] := by
  decide +kernel

/-! ## C04, C05: immutable dictionaries -/

/-- Every method that changes a dictionary. -/
inductive Mutator (κ α : Type) where
  | call (c : Call κ α)
  | popitem (n : Nat)

/-- Calling it. -/
def mutate (C : Conv κ α) (i : Nat) (f : Mutator κ α) (m : Mem κ α) : Res (Mem κ α) Unit :=
  match f with
  | .call c => Mem.call C i c m
  | .popitem n => drop (popItem i n m)

/-- Calling several, one after the other; the outcomes and the final memory. -/
def mutateAll (C : Conv κ α) (i : Nat) : List (Mutator κ α) → Mem κ α → List (Except Exc Unit) × Mem κ α
  | [], m => ([], m)
  | f :: fs, m =>
    let (r, m) := mutate C i f m
    let (rs, m) := mutateAll C i fs m
    (r :: rs, m)

/-- C04 as stated: all mutating methods of an immutable `ImmutableMultiValueDict` raise and change
nothing. -/
def C04_statement : Prop :=
  ∀ (κ α : Type) (_ : DecidableEq κ) (C : Conv κ α) (m : Mem κ α) (i : Nat) (fs : List (Mutator κ α)),
    (m.obj i).cls = .immutable → (m.obj i).mutable = false →
    (∀ r ∈ (mutateAll C i fs m).1, ∃ e, r = .error e) ∧ (mutateAll C i fs m).2.abs i = m.abs i

/-- An immutable dictionary of headers. -/
def headerMem : Mem Bytes Bytes :=
  { lists := [[.atom b!"example.com"]], dicts := [{ cls := .immutable, data := [(b!"Host", 0)] }] }

/-- C04 is false: `clear`, `pop` and `popitem` are not overridden. -/
theorem C04_refuted : ¬ C04_statement := by
  intro h
  have := (h Bytes Bytes inferInstance idConv headerMem 0 [.call .clear] rfl rfl).2
  have := congrFun this b!"Host"
  revert this
  decide +kernel

theorem C04_pop_refuted :
    headerMem.abs 0 b!"Host" = some [.atom b!"example.com"] ∧
    (pop 0 b!"Host" none headerMem).1.toOption = some (.list 0) ∧ (pop 0 b!"Host" none headerMem).2.abs 0 b!"Host" = none ∧
    ((popItem 0 0 headerMem).1.toOption.isSome ∧ (popItem 0 0 headerMem).2.abs 0 b!"Host" = none) ∧
    ((clear 0 headerMem).1.toOption.isSome ∧ (clear 0 headerMem).2.abs 0 b!"Host" = none) := by
  decide +kernel

/-- The methods C04 holds for. -/
def Guarded : Mutator κ α → Prop
  | .call (.pop _ _) | .call .clear | .popitem _ => False
  | _ => True

/-- C04 for all methods but `pop`, `popitem` and `clear`: they raise `AttributeError` and change
nothing at all. -/
theorem C04_partial (C : Conv κ α) (m : Mem κ α) (i : Nat) (hc : (m.obj i).cls = .immutable)
    (hm : (m.obj i).mutable = false) (fs : List (Mutator κ α)) (hg : ∀ f ∈ fs, Guarded f) :
    mutateAll C i fs m = (fs.map fun _ => .error .attributeError, m) := by
  have hA : m.assertMutable i = .error .attributeError := by unfold assertMutable; simp [hc, hm]
  induction fs with
  | nil => rfl
  | cons f fs ih =>
    have h1 : mutate C i f m = (.error .attributeError, m) := by
      have := hg f (by simp)
      rcases f with c | n
      · cases c <;> simp only [Guarded] at this <;>
          simp [mutate, call, setItem, setList, setDefault, setListDefault, appendList, update, delItem, hA, hc, drop]
      · exact absurd this id
    unfold mutateAll
    rw [h1]
    simp only
    rw [ih (fun f hf => hg f (by simp [hf]))]
    rfl

example : headerMem.abs 0 b!"Host" = some [.atom b!"example.com"] ∧
    ((mutateAll idConv 0 [.call (.set b!"Host" (.atom b!"evil")), .call (.del b!"Host"), .call (.append b!"X" .none),
      .call (.update .absent [])] headerMem).1.map fun r => r.toOption) = [none, none, none, none] := by
  decide +kernel

/-- `update` with nothing in it. -/
def EmptyUpdate (m : Mem κ α) : Mutator κ α → Prop
  | .call (.update arg kw) => kw = [] ∧
    match arg with
    | .absent => True
    | .mvd j => m.dict j = []
    | .mapping items => items = []
    | .other => False
  | _ => False

/-- C05.  While a `QueryDict` is immutable every mutating method, in any sequence, raises
`AttributeError`; only `update` with nothing in it returns.  The memory does not change at all. -/
theorem C05_immutable (C : Conv κ α) (m : Mem κ α) (i : Nat) (hc : (m.obj i).cls = .query)
    (hm : (m.obj i).mutable = false) (fs : List (Mutator κ α)) :
    (mutateAll C i fs m).2 = m ∧
    List.Forall₂ (fun f r => (¬ EmptyUpdate m f → r = .error .attributeError) ∧ (EmptyUpdate m f → r = .ok ()))
      fs (mutateAll C i fs m).1 := by
  have hA : m.assertMutable i = .error .attributeError := by unfold assertMutable; simp [hc, hm]
  have app : ∀ items : List (κ × Val α), appendAll C i items m = (if items = [] then .ok () else .error .attributeError, m) := by
    intro items
    cases items with
    | nil => rfl
    | cons p t => obtain ⟨k, v⟩ := p; simp [appendAll, appendBase, setListDefault, hA]
  have ext : ∀ items : Dict κ Nat, extendAll C i items m = (if items = [] then .ok () else .error .attributeError, m) := by
    intro items
    cases items with
    | nil => rfl
    | cons p t => obtain ⟨k, v⟩ := p; simp [extendAll, setListDefault, hA]
  have one : ∀ f, (mutate C i f m).2 = m ∧ (¬ EmptyUpdate m f → (mutate C i f m).1 = .error .attributeError) ∧
      (EmptyUpdate m f → (mutate C i f m).1 = .ok ()) := by
    intro f
    rcases f with c | n
    · cases c with
      | update arg kw =>
        simp only [mutate, call, update, hc, if_neg (by simp : ¬ DCls.query = DCls.immutable)]
        cases arg with
        | absent => simp only [updateArg, app, EmptyUpdate]; by_cases h : kw = [] <;> simp [h]
        | other => simp [updateArg, EmptyUpdate]
        | mvd j =>
          simp only [updateArg, ext, EmptyUpdate]
          by_cases h : m.dict j = []
          · by_cases h2 : kw = [] <;> simp [h, h2, app]
          · simp [h]
        | mapping items =>
          simp only [updateArg, app, EmptyUpdate]
          by_cases h : items = []
          · by_cases h2 : kw = [] <;> simp [h, h2, app]
          · simp [h]
      | _ =>
        simp [mutate, call, setItem, setList, setDefault, setListDefault, appendList, delItem, pop, clear, hA, hc, drop,
          EmptyUpdate]
    · simp [mutate, popItem, hA, hc, drop, EmptyUpdate]
  induction fs with
  | nil => exact ⟨rfl, .nil⟩
  | cons f fs ih =>
    obtain ⟨h1, h2, h3⟩ := one f
    unfold mutateAll
    generalize mutate C i f m = z at *
    obtain ⟨r, m'⟩ := z
    simp only at h1 h2 h3
    subst h1
    exact ⟨ih.1, .cons ⟨h2, h3⟩ ih.2⟩

/-- An immutable `QueryDict`. -/
def queryMem : Mem Bytes Bytes :=
  { lists := [[.atom b!"1", .atom b!"2"]], dicts := [{ cls := .query, data := [(b!"a", 0)] }] }

example : queryMem.abs 0 b!"a" = some [.atom b!"1", .atom b!"2"] ∧
    ((mutateAll idConv 0 [.call .clear, .popitem 0, .call (.pop b!"a" none), .call (.append b!"a" .none),
      .call (.update (.mapping [(b!"a", .none)]) []), .call (.update (.mapping []) [])] queryMem).1.map
        fun r => r.toOption.isSome) = [false, false, false, false, false, true] := by
  decide +kernel

/-! ## C06: `QueryDict.copy` -/

/-- C06 as stated: `copy` returns a mutable `QueryDict` with the same contents. -/
def C06_statement : Prop :=
  ∀ (κ α : Type) (_ : DecidableEq κ) (m : Mem κ α) (i : Nat), (m.obj i).cls = .query →
    ∃ c m', Mem.copy i m = (.ok c, m') ∧ (m'.obj c).cls = .query ∧ (m'.obj c).mutable = true ∧ m'.abs c = m.abs i

/-- C06 is false: no `QueryDict` can be copied. -/
theorem C06_always_raises (m : Mem κ α) (i : Nat) (h : (m.obj i).cls = .query) :
    Mem.copy i m = (.error .attributeError, m) := by
  unfold Mem.copy; rw [if_pos h]

theorem C06_refuted : ¬ C06_statement := by
  intro h
  obtain ⟨c, m', h1, -⟩ := h Bytes Bytes inferInstance queryMem 0 rfl
  rw [C06_always_raises _ _ rfl] at h1
  cases h1

/-! ## C66: `ImmutableList` -/

/-- The methods of Python 2.7's `list` that change it. -/
def Spec.listMutators : List String :=
  ["append", "extend", "insert", "remove", "pop", "sort", "reverse", "__setitem__", "__delitem__",
   "__setslice__", "__delslice__", "__iadd__", "__imul__"]

/-- Call methods one after the other. -/
def callMethods {α : Type} (tm : List String) : List String → ImmList α → List (Except Exc Unit) × ImmList α
  | [], l => ([], l)
  | n :: ns, l =>
    let (r, l) := l.callMethod tm n
    let (rs, l) := callMethods tm ns l
    (r :: rs, l)

/-- C66.  Any sequence of list-mutating methods on an `ImmutableList` raises, each time, the exception
given as the warning or else `AttributeError`, and the elements stay the same. -/
theorem C66_immutable_list {α : Type} (tm : List String) (items : List α) (warning : Option Exc) (ns : List String)
    (h : ∀ n ∈ ns, n ∈ Spec.listMutators) :
    (callMethods tm ns (ImmList.new items warning)).2.items = items ∧
    (callMethods tm ns (ImmList.new items warning)).1 =
      ns.map fun _ => .error (match warning with | some e => e | none => .attributeError) := by
  have key : callMethods tm ns (ImmList.new items warning) =
      (ns.map fun _ => .error (match warning with | some e => e | none => .attributeError), ImmList.new items warning) := by
    induction ns with
    | nil => rfl
    | cons n ns ih =>
      have h1 : n ∈ ImmList.complaining := by
        have h2 : ∀ x ∈ Spec.listMutators, x ∈ ImmList.complaining := by decide
        exact h2 n (h n (by simp))
      unfold callMethods ImmList.callMethod
      rw [if_pos h1]
      simp only
      rw [ih (fun n hn => h n (by simp [hn]))]
      cases warning <;> rfl
  rw [key]
  exact ⟨rfl, rfl⟩

example : ((callMethods ["index", "count"] ["append", "sort", "__setitem__"] (ImmList.new [1, 2] (some .valueError))).1.map
    fun r => match r with | .error e => some e | .ok _ => none) = [some .valueError, some .valueError, some .valueError] := by
  decide

end Verif
