import Mathlib.Data.List.Nodup
import Verif.Proofs.Sealed
import Verif.Model.MakeDict
import Verif.Model.Query
/-!
# What a dictionary hands out and what it is made of (C130)
-/

namespace Verif
open Spec Mem
variable {κ α : Type} [DecidableEq κ]

/-- What a client can do with dictionaries and lists: every method of a dictionary but `lists()`, making lists and
empty dictionaries, looking into a list and changing one. -/
inductive Act (κ α : Type) where
  | call (j : Nat) (c : Call κ α)
  | setdefault (j : Nat) (k : κ) (v : Val α)
  | setlistdefault (j : Nat) (k : κ) (p : Val α)
  | pop (j : Nat) (k : κ) (d : Option (Val α))
  | popitem (j n : Nat)
  | getitem (j : Nat) (k : κ)
  | get (j : Nat) (k : κ) (d : Val α)
  | getlist (j : Nat) (k : κ) (d : Val α)
  | items (j : Nat)
  | values (j : Nat)
  | asDict (j : Nat)
  | copy (j : Nat)
  | newList (xs : List (Val α))
  | newDict (cls : DCls) (mutable : Bool)
  | look (r : Nat)
  | change (r : Nat) (xs : List (Val α))

/-- The values the client has to have for it. -/
def Act.needs : Act κ α → List (Val α)
  | .call _ (.set _ v) | .call _ (.setlist _ v) | .call _ (.setdefault _ v) | .call _ (.setlistdefault _ v)
  | .call _ (.append _ v) | .setdefault _ _ v | .setlistdefault _ _ v | .get _ _ v | .getlist _ _ v => [v]
  | .call _ (.update (.mapping ps) kw) => ps.map Prod.snd ++ kw.map Prod.snd
  | .call _ (.update _ kw) => kw.map Prod.snd
  | .call _ (.pop _ d) | .pop _ _ d => d.toList
  | .newList xs => xs
  | .look r => [.list r]
  | .change r xs => .list r :: xs
  | _ => []

/-- Doing it: the values the client gets, and the memory afterwards. -/
def Act.run (C : Conv κ α) (m : Mem κ α) : Act κ α → List (Val α) × Mem κ α
  | .call j c => ([], (Mem.call C j c m).2)
  | .setdefault j k v => ((setDefault C j k v m).1.toOption.toList, (setDefault C j k v m).2)
  | .setlistdefault j k p => ((setListDefault C j k p m).1.toOption.toList, (setListDefault C j k p m).2)
  | .pop j k d => ((Mem.pop j k d m).1.toOption.toList, (Mem.pop j k d m).2)
  | .popitem j n => ((popItem j n m).1.toOption.toList.map Prod.snd, (popItem j n m).2)
  | .getitem j k => ((getItem j k m).1.toOption.toList, (getItem j k m).2)
  | .get j k d => ((Mem.get j k d m).1.toOption.toList, (Mem.get j k d m).2)
  | .getlist j k d => ((getList j k d m).1.toOption.toList, (getList j k d m).2)
  | .items j => (((Mem.items j m).1.toOption.getD []).map Prod.snd, (Mem.items j m).2)
  | .values j => ((Mem.values j m).1.toOption.getD [], (Mem.values j m).2)
  | .asDict j => (((Mem.asDict j m).1.toOption.getD []).map Prod.snd, (Mem.asDict j m).2)
  | .copy j => ([], (Mem.copy j m).2)
  | .newList xs => ([.list (m.alloc xs).1], (m.alloc xs).2)
  | .newDict cls b => ([], m.newDict cls b)
  | .look r => (m.elems r, m)
  | .change r xs => ([], m.write r xs)

/-- What a client can bring about who starts in the memory `m₀` with the lists `K₀` in hand: it passes and changes
only lists it has, and it has those that it made or was given. -/
inductive Plays (C : Conv κ α) (m₀ : Mem κ α) (K₀ : Nat → Prop) : Mem κ α → (Nat → Prop) → Prop where
  | start : Plays C m₀ K₀ m₀ K₀
  | step {m K} (h : Plays C m₀ K₀ m K) (a : Act κ α) (ha : ∀ r, Val.list r ∈ a.needs → K r) :
      Plays C m₀ K₀ (a.run C m).2 fun r => K r ∨ Val.list r ∈ (a.run C m).1

/-- The dictionary `i` is an immutable `QueryDict`, and its lists are nobody else's: the client does not have them and
they are not elements of lists. -/
structure Sealed (m : Mem κ α) (K : Nat → Prop) (i : Nat) : Prop where
  wf : m.WF
  exists' : i < m.dicts.length
  cls : (m.obj i).cls = .query
  frozen : (m.obj i).mutable = false
  own : ∀ k r, (m.dict i).get? k = some r → ¬ K r ∧ ∀ s, Val.list r ∉ m.elems s

/-- The lists of a dictionary. -/
def HeldBy (m : Mem κ α) (i r : Nat) : Prop := ∃ k, (m.dict i).get? k = some r

theorem call_frozen (C : Conv κ α) {m : Mem κ α} {i : Nat} (hc : (m.obj i).cls = .query) (hm : (m.obj i).mutable = false)
    (c : Call κ α) : (Mem.call C i c m).2 = m := (C05_immutable C m i hc hm [.call c]).1

theorem Sealed.good {m : Mem κ α} {K : Nat → Prop} {i : Nat} (h : Sealed m K i) {vs : List (Val α)}
    (hv : ∀ r, Val.list r ∈ vs → K r) : ∀ v ∈ vs, Good (HeldBy m i) v := by
  rintro v hv' r rfl ⟨k, hk⟩
  exact (h.own k r hk).1 (hv r hv')

theorem Sealed.clean {m : Mem κ α} {K : Nat → Prop} {i : Nat} (h : Sealed m K i) : Clean (HeldBy m i) m := by
  rintro s v hv r rfl ⟨k, hk⟩
  exact (h.own k r hk).2 s hv

theorem Sealed.bound {m : Mem κ α} {K : Nat → Prop} {i : Nat} (h : Sealed m K i) :
    ∀ r, HeldBy m i r → r < m.lists.length := fun r ⟨k, hk⟩ => h.wf.valid i k r hk

/-- Putting together: the memory after a step. -/
theorem Sealed.next {m m' : Mem κ α} {K : Nat → Prop} {i : Nat} (h : Sealed m K i) (wf : m'.WF)
    (hl : m.dicts.length ≤ m'.dicts.length) (ho : m'.obj i = m.obj i) (ha : m'.abs i = m.abs i)
    (hc : Clean (HeldBy m i) m') {vs : List (Val α)} (hv : ∀ v ∈ vs, Good (HeldBy m i) v) :
    Sealed m' (fun r => K r ∨ Val.list r ∈ vs) i ∧ m'.abs i = m.abs i := by
  have hd : m'.dict i = m.dict i := by unfold Mem.dict; rw [ho]
  refine ⟨⟨wf, Nat.lt_of_lt_of_le h.exists' hl, ho ▸ h.cls, ho ▸ h.frozen, fun k r hk => ?_⟩, ha⟩
  rw [hd] at hk
  refine ⟨?_, fun s hs => hc s _ hs r rfl ⟨k, hk⟩⟩
  rintro (hr | hr)
  · exact (h.own k r hk).1 hr
  · exact hv _ hr r rfl ⟨k, hk⟩

theorem DObj.ext' {a b : DObj κ} (h1 : a.cls = b.cls) (h2 : a.mutable = b.mutable) (h3 : a.data = b.data) : a = b := by
  cases a; cases b; simp_all

theorem Sealed.touch {m m' : Mem κ α} {K : Nat → Prop} {i j : Nat} (h : Sealed m K i) (hj : i ≠ j) (ht : Touch j m m')
    (hc : Clean (HeldBy m i) m') {vs : List (Val α)} (hv : ∀ v ∈ vs, Good (HeldBy m i) v) :
    Sealed m' (fun r => K r ∨ Val.list r ∈ vs) i ∧ m'.abs i = m.abs i := by
  have kp := ht.kept h.wf
  exact h.next kp.wf (Nat.le_of_eq kp.dicts.symm) (DObj.ext' (kp.cls i) (kp.mutbl i) (kp.dict i hj)) (kp.abs i hj) hc hv

theorem Sealed.same {m : Mem κ α} {K : Nat → Prop} {i : Nat} (h : Sealed m K i) {vs : List (Val α)}
    (hv : ∀ v ∈ vs, Good (HeldBy m i) v) : Sealed m (fun r => K r ∨ Val.list r ∈ vs) i ∧ m.abs i = m.abs i :=
  h.next h.wf (Nat.le_refl _) rfl rfl h.clean hv

/-- Only new lists have come. -/
def Grown (m m' : Mem κ α) : Prop := m'.dicts = m.dicts ∧ ∃ ys, m'.lists = m.lists ++ ys

theorem Grown.refl (m : Mem κ α) : Grown m m := ⟨rfl, [], by simp⟩

theorem Grown.alloc (m : Mem κ α) (xs : List (Val α)) : Grown m (m.alloc xs).2 := ⟨rfl, [xs], rfl⟩

theorem Grown.trans {m m' m'' : Mem κ α} (h : Grown m m') (h' : Grown m' m'') : Grown m m'' := by
  obtain ⟨a, ys, b⟩ := h
  obtain ⟨c, zs, d⟩ := h'
  exact ⟨c.trans a, ys ++ zs, by rw [d, b, List.append_assoc]⟩

theorem getItem_grown (j : Nat) (k : κ) (m : Mem κ α) : Grown m (getItem j k m).2 := by
  unfold getItem
  split
  · exact .refl m
  · split
    · exact .refl m
    · exact .alloc m []

theorem get_grown (j : Nat) (k : κ) (d : Val α) (m : Mem κ α) : Grown m (Mem.get j k d m).2 := by
  have h := getItem_grown j k m
  unfold Mem.get
  generalize getItem j k m = z at *
  obtain ⟨r, m'⟩ := z
  cases r with
  | error e => cases e <;> exact h
  | ok v => simp only; split <;> exact h

theorem getList_grown (j : Nat) (k : κ) (d : Val α) (m : Mem κ α) : Grown m (getList j k d m).2 := by
  unfold getList
  split
  · exact .alloc m _
  · split
    · exact .alloc m _
    · exact .refl m

theorem itemsLoop_grown (j : Nat) : ∀ (ks : List κ) (m : Mem κ α), Grown m (itemsLoop j ks m).2
  | [], m => .refl m
  | k :: ks, m => by
    have h := getItem_grown j k m
    unfold itemsLoop
    generalize getItem j k m = z at *
    obtain ⟨r, m1⟩ := z
    cases r with
    | error e => exact h
    | ok v =>
      have ih := itemsLoop_grown j ks m1
      simp only at h ih ⊢
      generalize itemsLoop j ks m1 = z at *
      obtain ⟨r, m2⟩ := z
      cases r <;> exact h.trans ih

theorem Sealed.grown {m m' : Mem κ α} {K : Nat → Prop} {i : Nat} (h : Sealed m K i) (hg : Grown m m')
    (hc : Clean (HeldBy m i) m') {vs : List (Val α)} (hv : ∀ v ∈ vs, Good (HeldBy m i) v) :
    Sealed m' (fun r => K r ∨ Val.list r ∈ vs) i ∧ m'.abs i = m.abs i := by
  obtain ⟨a, ys, b⟩ := hg
  have ho : ∀ j, m'.obj j = m.obj j := fun j => by unfold Mem.obj; rw [a]
  have hd : ∀ j, m'.dict j = m.dict j := fun j => by unfold Mem.dict; rw [ho]
  refine h.next ⟨fun j => hd j ▸ h.wf.nodup j, fun j k r hr => ?_, fun j k j' k' r h1 h2 => ?_⟩ (by rw [a]; exact Nat.le_refl _) (ho i) ?_ hc hv
  · rw [hd] at hr; have := h.wf.valid j k r hr; rw [b, List.length_append]; omega
  · rw [hd] at h1 h2; exact h.wf.inj _ _ _ _ _ h1 h2
  · refine abs_congr (hd i) fun k r hr => ?_
    have := h.wf.valid i k r hr
    unfold Mem.elems
    rw [b, List.getElem?_append_left this]

/-- What an action needs is good for the lists of a sealed dictionary, so is what it gives; the dictionary answers as
before. -/
theorem Sealed.step {C : Conv κ α} (hC : Conv.Plain C) {m : Mem κ α} {K : Nat → Prop} {i : Nat} (h : Sealed m K i)
    (a : Act κ α) (ha : ∀ r, Val.list r ∈ a.needs → K r) :
    Sealed (a.run C m).2 (fun r => K r ∨ Val.list r ∈ (a.run C m).1) i ∧ (a.run C m).2.abs i = m.abs i := by
  have hg := h.good ha
  have hc := h.clean
  have hb := h.bound
  have one : ∀ {x : Except Exc (Val α)}, (∀ v, x = .ok v → Good (HeldBy m i) v) →
      ∀ v ∈ x.toOption.toList, Good (HeldBy m i) v := by
    intro x hx v hv
    cases x with
    | error e => cases hv
    | ok w => simp only [Except.toOption, Option.toList, List.mem_singleton] at hv; exact hx v (hv ▸ rfl)
  have hA : m.assertMutable i = .error .attributeError := by unfold assertMutable; simp [h.cls, h.frozen]
  cases a with
  | call j c =>
    simp only [Act.run]
    by_cases hj : i = j
    · subst hj
      rw [call_frozen C h.cls h.frozen]
      exact h.same (vs := []) (by simp)
    · refine h.touch hj (call_touch C j c m h.wf) ?_ (by simp)
      cases c with
      | set k v => exact setItem_clean hC hc hb _ _ (hg v (by simp [Act.needs]))
      | setlist k p => exact setList_clean hC hc _ _ _
      | setdefault k v => unfold Mem.call; rw [drop_snd]; exact (setDefault_clean hC hc hb _ _ (hg v (by simp [Act.needs]))).1
      | setlistdefault k p => unfold Mem.call; rw [drop_snd]; exact setListDefault_clean hC hc _ _ _
      | append k v => exact appendList_clean hC hc _ _ (hg v (by simp [Act.needs]))
      | update arg kw =>
        refine update_clean hC hc _ _ _ (fun p hp => hg p.2 ?_) (fun ps hps p hp => hg p.2 ?_)
        · have : p.2 ∈ kw.map Prod.snd := List.mem_map_of_mem hp
          cases arg <;> simp only [Act.needs, List.mem_append] <;> first | exact this | exact Or.inr this
        · subst hps
          simp only [Act.needs, List.mem_append]
          exact Or.inl (List.mem_map_of_mem hp)
      | del k =>
        simp only [Mem.call, delItem]
        split
        · exact hc
        · split <;> exact hc
      | pop k d => unfold Mem.call; rw [drop_snd]; exact pop_clean hc _ _ _
      | clear =>
        simp only [Mem.call, clear]
        split <;> exact hc
  | setdefault j k v =>
    have hv : Good (HeldBy m i) v := hg v (by simp [Act.needs])
    by_cases hj : i = j
    · subst hj
      have : setDefault C i k v m = (.error .attributeError, m) := by unfold setDefault; rw [hA]
      simp only [Act.run, this]
      exact ⟨(h.same (vs := []) (by simp)).1, trivial⟩
    · obtain ⟨h1, h2⟩ := setDefault_clean hC hc hb j k hv
      exact h.touch hj (setDefault_touch C j k v m) h1 (one h2)
  | setlistdefault j k p =>
    by_cases hj : i = j
    · subst hj
      have : setListDefault C i k p m = (.error .attributeError, m) := by unfold setListDefault; rw [hA]
      simp only [Act.run, this]
      exact ⟨(h.same (vs := []) (by simp)).1, trivial⟩
    · have ht := (setListDefault_touch C j k p m h.wf).1
      refine h.touch hj ht (setListDefault_clean hC hc _ _ _) (one ?_)
      rintro v hv r rfl ⟨k', hk'⟩
      have kp := ht.kept h.wf
      rw [← kp.dict i hj] at hk'
      rcases (setListDefault_touch C j k p m h.wf).2 r hv with ⟨k2, h2⟩ | hf
      · exact hj (kp.wf.inj _ _ _ _ _ hk' h2).1
      · exact hf i k' hk'
  | pop j k d =>
    by_cases hj : i = j
    · subst hj
      have : Mem.pop i k d m = (.error .attributeError, m) := by unfold Mem.pop; rw [if_pos h.cls, hA]
      simp only [Act.run, this]
      exact ⟨(h.same (vs := []) (by simp)).1, trivial⟩
    · refine h.touch hj (pop_touch j k d m) (pop_clean hc _ _ _) (one ?_)
      intro v hv
      unfold Mem.pop at hv
      split at hv
      · cases hv
      · split at hv
        · rename_i r hr
          cases hv
          rintro r' hr' ⟨k', hk'⟩
          cases hr'
          exact hj (h.wf.inj _ _ _ _ _ hk' hr).1
        · split at hv
          · cases hv; exact hg _ (by simp [Act.needs])
          · cases hv
  | popitem j n =>
    by_cases hj : i = j
    · subst hj
      have : popItem i n m = (.error .attributeError, m) := by unfold popItem; rw [if_pos h.cls, hA]
      simp only [Act.run, this]
      exact ⟨(h.same (vs := []) (by simp)).1, trivial⟩
    · refine h.touch hj (popItem_touch j n m) (popItem_clean hc _ _) ?_
      intro v hv
      simp only [Act.run] at hv
      unfold popItem at hv
      split at hv
      · cases hv
      · split at hv
        · rename_i k r hr
          simp only [Except.toOption, Option.toList, List.map_cons, List.map_nil, List.mem_singleton] at hv
          subst hv
          rintro r' hr' ⟨k', hk'⟩
          cases hr'
          exact hj (h.wf.inj _ _ _ _ _ hk' (Dict.get?_of_mem (h.wf.nodup j) (List.mem_of_getElem? hr))).1
        · cases hv
  | getitem j k =>
    obtain ⟨h1, h2⟩ := getItem_clean hc hb j k
    exact h.grown (getItem_grown j k m) h1 (one h2)
  | get j k d =>
    obtain ⟨h1, h2⟩ := get_clean hc hb j k (hg d (by simp [Act.needs]))
    exact h.grown (get_grown j k d m) h1 (one h2)
  | getlist j k d =>
    obtain ⟨h1, h2⟩ := getList_clean hc hb j k (hg d (by simp [Act.needs]))
    exact h.grown (getList_grown j k d m) h1 (one h2)
  | items j =>
    obtain ⟨h1, h2⟩ := itemsLoop_clean j (m.dict j).keys hc hb
    refine h.grown (itemsLoop_grown j _ m) h1 ?_
    intro v hv
    simp only [Act.run, Mem.items] at hv
    cases hx : (itemsLoop j (m.dict j).keys m).1 with
    | error e => rw [hx] at hv; cases hv
    | ok l =>
      rw [hx] at hv
      simp only [Except.toOption, Option.getD_some, List.mem_map] at hv
      obtain ⟨p, hp, rfl⟩ := hv
      exact h2 l hx p hp
  | values j =>
    obtain ⟨h1, h2⟩ := itemsLoop_clean j (m.dict j).keys hc hb
    have h3 := itemsLoop_grown j (m.dict j).keys m
    simp only [Act.run, Mem.values, Mem.items]
    generalize itemsLoop j (m.dict j).keys m = z at *
    obtain ⟨x, m'⟩ := z
    cases x with
    | error e => exact h.grown (vs := []) h3 h1 (by simp)
    | ok l =>
      refine h.grown (vs := l.map Prod.snd) h3 h1 fun v hv => ?_
      obtain ⟨p, hp, rfl⟩ := List.mem_map.1 hv
      exact h2 l rfl p hp
  | asDict j =>
    obtain ⟨h1, h2⟩ := itemsLoop_clean j (m.dict j).keys hc hb
    have h3 := itemsLoop_grown j (m.dict j).keys m
    simp only [Act.run, Mem.asDict, Mem.items]
    generalize itemsLoop j (m.dict j).keys m = z at *
    obtain ⟨x, m'⟩ := z
    cases x with
    | error e => exact h.grown (vs := []) h3 h1 (by simp)
    | ok l =>
      refine h.grown (vs := (l.foldl (fun d p => Dict.set d p.1 p.2) []).map Prod.snd) h3 h1 fun v hv => ?_
      obtain ⟨p, hp, rfl⟩ := List.mem_map.1 hv
      have hset : ∀ (d : Dict κ (Val α)) (k : κ) (w : Val α), ∀ q ∈ d.set k w, q.2 = w ∨ q ∈ d := by
        intro d k w
        induction d with
        | nil => intro q hq; simp only [Dict.set, List.mem_singleton] at hq; exact .inl (hq ▸ rfl)
        | cons a t ih =>
          intro q hq
          obtain ⟨a1, a2⟩ := a
          unfold Dict.set at hq
          split at hq
          · rcases List.mem_cons.1 hq with rfl | hq
            · exact .inl rfl
            · exact .inr (by simp [hq])
          · rcases List.mem_cons.1 hq with rfl | hq
            · exact .inr (by simp)
            · rcases ih q hq with h | h
              · exact .inl h
              · exact .inr (by simp [h])
      have : ∀ (l : List (κ × Val α)) (d : Dict κ (Val α)), (∀ p ∈ l, Good (HeldBy m i) p.2) →
          (∀ p ∈ d, Good (HeldBy m i) p.2) → ∀ p ∈ l.foldl (fun d p => Dict.set d p.1 p.2) d, Good (HeldBy m i) p.2 := by
        intro l
        induction l with
        | nil => intro d _ hd; exact hd
        | cons q l ih =>
          intro d hl hd
          refine ih _ (fun p hp => hl p (by simp [hp])) fun p hp => ?_
          rcases hset d q.1 q.2 p hp with h | h
          · rw [h]; exact hl q (by simp)
          · exact hd p h
      exact this l [] (h2 l rfl) (by simp) p hp
  | copy j =>
    obtain ⟨c1, c2, -, -, -⟩ := copy_spec m h.wf j
    have hcl : Clean (HeldBy m i) (Mem.copy j m).2 := by
      unfold Mem.copy
      split
      · exact hc
      · exact copyItems_clean _ _ (hc.newDict _ _)
    have hx : m.dicts.length ≤ (Mem.copy j m).2.dicts.length ∧ (Mem.copy j m).2.obj i = m.obj i := by
      unfold Mem.copy
      split
      · exact ⟨Nat.le_refl _, rfl⟩
      · have go : ∀ (d : Dict κ Nat) (m1 : Mem κ α), m.dicts.length < m1.dicts.length → m1.obj i = m.obj i →
            m.dicts.length ≤ (copyItems m.dicts.length d m1).dicts.length ∧
            (copyItems m.dicts.length d m1).obj i = m.obj i := by
          intro d
          induction d with
          | nil => intro m1 h1 h2; exact ⟨Nat.le_of_lt h1, h2⟩
          | cons p t ih =>
            intro m1 h1 h2
            obtain ⟨k, r⟩ := p
            unfold copyItems
            refine ih _ (by simpa [Mem.put, Mem.alloc, Mem.setDict] using h1) (h2 ▸ ?_)
            have := h.exists'
            unfold Mem.obj
            simp only [Mem.put, Mem.alloc, Mem.setDict]
            rw [List.getElem?_set_ne (by omega)]
        refine go _ _ (by simp [Mem.newDict]) ?_
        unfold Mem.obj Mem.newDict
        rw [List.getElem?_append_left h.exists']
    exact h.next (vs := []) c1 hx.1 hx.2 (c2 i h.exists') hcl (by simp)
  | newList xs =>
    refine h.grown (.alloc m xs) (hc.alloc hg) fun v hv => ?_
    simp only [Act.run, List.mem_singleton] at hv
    subst hv
    intro r hr hb'
    cases hr
    exact absurd (hb _ hb') (by simp [Mem.alloc])
  | newDict cls b =>
    refine h.next (vs := []) (h.wf.newDict cls b) (by simp [Mem.newDict, Act.run]) ?_ (newDict_abs ..) (hc.newDict _ _) (by simp)
    unfold Mem.obj Mem.newDict
    rw [List.getElem?_append_left h.exists']
  | look r => exact h.same (hc r)
  | change r xs =>
    have hr : ∀ k, (m.dict i).get? k ≠ some r := fun k hk => hg (.list r) (by simp [Act.needs]) r rfl ⟨k, hk⟩
    refine h.next (m' := m.write r xs) (vs := []) ⟨h.wf.nodup, fun j k r' hk => ?_, h.wf.inj⟩ (Nat.le_refl _) rfl
      (abs_write_free hr xs) (hc.write fun v hv => hg v (by simp [Act.needs, hv])) (by simp)
    have := h.wf.valid j k r' hk
    simpa [Act.run, Mem.write] using this

/-- **C130**, the part that holds (missing: `lists()` and making a dictionary from a dictionary, see
`C130_lists_refuted` and `C130_made_refuted`).  Whatever a client does who has an immutable `QueryDict` and any other
dictionaries and lists — calling all methods in any order, looking into and changing every list it made or was given —
the `QueryDict` answers every lookup as at the start. -/
theorem C130_sealed_partial (C : Conv κ α) (hC : Conv.Plain C) (m₀ : Mem κ α) (K₀ : Nat → Prop) (i : Nat)
    (h : Sealed m₀ K₀ i) {m : Mem κ α} {K : Nat → Prop} (hp : Plays C m₀ K₀ m K) :
    Answers m i (m₀.abs i) ∧ (m.obj i).mutable = false := by
  have : Sealed m K i ∧ m.abs i = m₀.abs i := by
    induction hp with
    | start => exact ⟨h, rfl⟩
    | step _ a ha ih =>
      obtain ⟨h1, h2⟩ := ih.1.step hC a ha
      exact ⟨h1, h2.trans ih.2⟩
  exact ⟨this.2 ▸ answers_abs _ _, this.1.frozen⟩

/-- The conversions of `QueryDict` make no lists. -/
theorem queryConv_plain (C : Codecs) (enc : Bytes) : Conv.Plain (queryConv C enc) := by
  refine ⟨fun v r h => ?_, fun a vs r h hm => ?_⟩
  · cases v with
    | none => cases h
    | list s => simp only [queryConv, Except.ok.injEq] at h; exact h
    | atom a =>
      simp only [queryConv] at h
      cases hb : bytesToTextV C enc a <;> rw [hb] at h <;> cases h
  · cases a <;> simp only [queryConv, Except.ok.injEq] at h <;> subst h <;> simp at hm

/-- **C130 is false**: `lists()` hands out the lists themselves.  For every dictionary, also an immutable one: changing
the list that `lists()` gives for a key changes what the dictionary answers. -/
theorem C130_lists_refuted (m : Mem κ α) (wf : m.WF) (i : Nat) (k : κ) (v : Val α) (hv : (k, v) ∈ listsOf i m)
    (xs : List (Val α)) : ∃ r, v = .list r ∧ Answers (m.write r xs) i ((m.abs i).upd k (some xs)) := by
  unfold listsOf at hv
  obtain ⟨⟨k', r⟩, hp, he⟩ := List.mem_map.1 hv
  simp only [Prod.mk.injEq] at he
  obtain ⟨rfl, rfl⟩ := he
  have hg := Dict.get?_of_mem (wf.nodup i) hp
  refine ⟨r, rfl, ?_⟩
  rw [← abs_write wf hg xs]
  exact answers_abs _ _

theorem foldl_set_get? (ps : List (κ × Nat)) (d : Dict κ Nat) (k : κ) :
    (ps.foldl (fun d p => Dict.set d p.1 p.2) d).get? k =
      match (ps.filter (fun p => p.1 = k)).getLast? with
      | some p => some p.2
      | none => d.get? k := by
  induction ps generalizing d with
  | nil => rfl
  | cons q ps ih =>
    rw [List.foldl_cons, ih, Dict.get?_set, List.filter_cons]
    by_cases hq : q.1 = k
    · simp only [hq, decide_true, if_true]
      cases hl : ps.filter (fun p => p.1 = k) with
      | nil => simp
      | cons a t => rw [List.getLast?_cons_cons]; simp [List.getLast?_eq_some_getLast]
    · simp [hq]

theorem makeDict_dict (cls : DCls) (ps : List (κ × Nat)) (m : Mem κ α) (j : Nat) :
    (makeDict cls ps m).2.dict j =
      if j = m.dicts.length then ps.foldl (fun d p => Dict.set d p.1 p.2) [] else m.dict j := by
  unfold makeDict Mem.dict Mem.obj
  by_cases hj : j = m.dicts.length
  · subst hj; simp
  · rw [if_neg hj]
    by_cases hl : j < m.dicts.length
    · simp [List.getElem?_append_left hl]
    · simp only
      rw [List.getElem?_eq_none (by simp; omega), List.getElem?_eq_none (by omega)]

/-- **C130 is false**: `MultiValueDict(d)` shares the lists of `d`.  For every dictionary, also an immutable one, and
every key in it: appending to the new dictionary appends to the old one. -/
theorem C130_made_refuted (C : Conv κ α) (m : Mem κ α) (wf : m.WF) (i : Nat) (k : κ) (xs : List (Val α))
    (hx : m.abs i k = some xs) (v : Val α) :
    ∃ m', appendList C (makeFrom .plain i m).1 k v (makeFrom .plain i m).2 = (.ok (), m') ∧
      m'.abs i k = some (xs ++ [v]) := by
  have hi : i ≠ m.dicts.length := by
    rintro rfl
    simp [Mem.abs, Mem.dict, Mem.obj, Dict.get?] at hx
  obtain ⟨r, hr, hrx⟩ : ∃ r, (m.dict i).get? k = some r ∧ m.elems r = xs := by
    unfold Mem.abs at hx
    cases hg : (m.dict i).get? k with
    | none => rw [hg] at hx; cases hx
    | some r => rw [hg] at hx; exact ⟨r, rfl, Option.some.inj hx⟩
  have hnew : ((makeFrom .plain i m).2.dict m.dicts.length).get? k = some r := by
    unfold makeFrom
    rw [makeDict_dict, if_pos rfl, foldl_set_get?]
    have hone : (m.dict i).filter (fun p => p.1 = k) = [(k, r)] := by
      have hm := Dict.mem_of_get? hr
      have hn := wf.nodup i
      generalize m.dict i = d at *
      clear hx hi
      induction d with
      | nil => cases hm
      | cons a t ih =>
        obtain ⟨a1, a2⟩ := a
        simp only [Dict.keys, List.map_cons, List.nodup_cons] at hn
        by_cases ha : a1 = k
        · subst ha
          rw [Dict.get?, if_pos rfl] at hr
          cases hr
          rw [List.filter_cons, if_pos (by simp)]
          have : t.filter (fun p => p.1 = a1) = [] := by
            rw [List.filter_eq_nil_iff]
            intro p hp
            simp only [decide_eq_true_eq]
            rintro rfl
            exact hn.1 (List.mem_map_of_mem hp)
          rw [this]
        · rw [Dict.get?, if_neg ha] at hr
          rw [List.filter_cons, if_neg (by simp [ha])]
          exact ih hr (Dict.mem_of_get? hr) hn.2
    rw [hone]; rfl
  have hcls : ((makeFrom .plain i m).2.obj m.dicts.length).cls = .plain := by
    simp [makeFrom, makeDict, Mem.obj]
  have hA : (makeFrom .plain i m).2.assertMutable m.dicts.length = .ok () := by
    unfold assertMutable; rw [hcls]
  have hel : ∀ s, (makeFrom .plain i m).2.elems s = m.elems s := fun s => rfl
  have hd : (makeFrom .plain i m).2.dict i = m.dict i := by unfold makeFrom; rw [makeDict_dict, if_neg hi]
  have hll : (makeFrom .plain i m).2.lists = m.lists := rfl
  have h1 : (makeFrom .plain i m).1 = m.dicts.length := rfl
  rw [h1]
  generalize (makeFrom .plain i m).2 = m1 at *
  refine ⟨m1.write r (m1.elems r ++ [v]), ?_, ?_⟩
  · have hc : m1.contains m.dicts.length k = true := by unfold Mem.contains; rw [hnew]; rfl
    simp only [appendList, hA, hcls, appendBase, setListDefault, ensureList, hc, getListLive, hnew, appendTo, if_true]
    simp
  · unfold Mem.abs
    rw [dict_write, hd, hr, Option.map_some, elems_write, if_pos ⟨rfl, hll ▸ wf.valid i k r hr⟩, hel, hrx]

/-- What a dictionary contains that is made from pairs of a key and a list: for each key the list given last.  It is
not mutable if it is an `ImmutableMultiValueDict`; all other dictionaries stay as they are. -/
theorem C130_contents (cls : DCls) (ps : List (κ × Nat)) (m : Mem κ α) :
    let r := makeDict cls ps m
    Answers r.2 r.1 (fun k => ((ps.filter (fun p => p.1 = k)).getLast?).map fun p => m.elems p.2) ∧
    (r.2.obj r.1).cls = cls ∧ (r.2.obj r.1).mutable = false ∧
    ∀ j, j < m.dicts.length → Answers r.2 j (m.abs j) := by
  intro r
  have h1 : r.1 = m.dicts.length := rfl
  have hel : ∀ s, r.2.elems s = m.elems s := fun s => rfl
  refine ⟨?_, ?_, ?_, fun j hj => ?_⟩
  · have : (fun k => ((ps.filter (fun p => p.1 = k)).getLast?).map fun p => m.elems p.2) = r.2.abs r.1 := by
      funext k
      unfold Mem.abs
      rw [h1, makeDict_dict, if_pos rfl, foldl_set_get?]
      cases (ps.filter (fun p => p.1 = k)).getLast? <;> rfl
    rw [this]
    exact answers_abs _ _
  · simp [r, makeDict, Mem.obj]
  · simp [r, makeDict, Mem.obj]
  · have : m.abs j = r.2.abs j := by
      unfold Mem.abs
      rw [makeDict_dict, if_neg (by omega)]
      rfl
    rw [this]
    exact answers_abs _ _

/-- A dictionary made from lists that are in no dictionary, each given once, shares nothing: then everything said
about `MultiValueDict` (C01, C02, C03) is true of it. -/
theorem C130_fresh (cls : DCls) (ps : List (κ × Nat)) (m : Mem κ α) (wf : m.WF) (hd : (ps.map Prod.snd).Nodup)
    (hn : ∀ p ∈ ps, p.2 < m.lists.length ∧ ∀ j, ¬ HeldBy m j p.2) : (makeDict cls ps m).2.WF := by
  have hin : ∀ k r, (ps.foldl (fun d p => Dict.set d p.1 p.2) []).get? k = some r → (k, r) ∈ ps := by
    intro k r h
    rw [foldl_set_get?] at h
    cases hl : (ps.filter (fun p => p.1 = k)).getLast? with
    | none => rw [hl] at h; cases h
    | some p =>
      rw [hl] at h
      have := List.mem_filter.1 (List.mem_of_getLast? hl)
      simp only [decide_eq_true_eq] at this
      cases h
      rw [← this.2]
      exact this.1
  refine ⟨fun j => ?_, fun j k r h => ?_, fun j k j' k' r h h' => ?_⟩
  · rw [makeDict_dict]
    split
    · have : ∀ (l : List (κ × Nat)) (d : Dict κ Nat), d.keys.Nodup →
          (l.foldl (fun d p => Dict.set d p.1 p.2) d).keys.Nodup := by
        intro l
        induction l with
        | nil => intro d h; exact h
        | cons q l ih => intro d h; exact ih _ (Dict.keys_set_nodup h _ _)
      exact this ps [] (by simp [Dict.keys])
    · exact wf.nodup j
  · rw [makeDict_dict] at h
    split at h
    · exact (hn _ (hin k r h)).1
    · exact wf.valid j k r h
  · rw [makeDict_dict] at h h'
    split at h <;> split at h'
    · rename_i e e'
      have a := hin k r h
      have b := hin k' r h'
      have := List.inj_on_of_nodup_map hd a b rfl
      cases this
      exact ⟨e.trans e'.symm, rfl⟩
    · exact absurd ⟨k', h'⟩ ((hn _ (hin k r h)).2 j')
    · exact absurd ⟨k, h⟩ ((hn _ (hin k' r h')).2 j)
    · exact wf.inj _ _ _ _ _ h h'

/-! ## Cases -/

theorem queryMem_sealed : Sealed queryMem (fun r => 1 ≤ r) 0 := by
  have hk : ∀ i k r, (queryMem.dict i).get? k = some r → i = 0 ∧ k = b!"a" ∧ r = 0 := by
    intro i k r h
    cases i with
    | succ n => simp [queryMem, Mem.dict, Mem.obj, Dict.get?] at h
    | zero =>
      simp only [queryMem, Mem.dict, Mem.obj, List.getElem?_cons_zero, Option.getD_some, Dict.get?] at h
      split at h
      · rename_i e; cases h; exact ⟨rfl, e.symm, rfl⟩
      · cases h
  refine ⟨⟨fun i => ?_, fun i k r h => ?_, fun i k i' k' r h h' => ?_⟩, by decide, rfl, rfl, fun k r h => ?_⟩
  · cases i with
    | zero => decide
    | succ n => simp [queryMem, Mem.dict, Mem.obj, Dict.keys]
  · obtain ⟨-, -, rfl⟩ := hk i k r h; decide
  · obtain ⟨rfl, rfl, -⟩ := hk _ _ _ h
    obtain ⟨rfl, rfl, -⟩ := hk _ _ _ h'
    exact ⟨rfl, rfl⟩
  · obtain ⟨-, -, rfl⟩ := hk _ _ _ h
    refine ⟨by omega, fun s hs => ?_⟩
    match s with
    | 0 => revert hs; decide
    | n + 1 => simp [queryMem, Mem.elems] at hs

/-- A client asks for the list of a key and empties it, makes a dictionary of its own, puts things into it, updates it
from the immutable one and empties what `setlistdefault` and `pop` give: the immutable dictionary is as before.
Making a dictionary *from* it, or asking for `lists()`, is another matter. -/
example :
    let as : List (Act Bytes Bytes) := [.getlist 0 b!"a" .none, .change 1 [], .newDict .plain false,
      .call 1 (.update (.mvd 0) []), .setlistdefault 1 b!"a" .none, .change 2 [], .pop 1 b!"a" none, .call 0 (.set b!"a" .none)]
    let m := as.foldl (fun m a => (a.run idConv m).2) queryMem
    m.abs 0 b!"a" = some [.atom b!"1", .atom b!"2"] ∧
    ((appendList idConv 1 b!"a" (.atom b!"3") (makeFrom .plain 0 queryMem).2).2.abs 0 b!"a" =
      some [.atom b!"1", .atom b!"2", .atom b!"3"]) ∧
    listsOf 0 queryMem = [(b!"a", .list 0)] := by
  decide +kernel

example : Answers ((Act.change 1 [] : Act Bytes Bytes).run idConv
      ((Act.getlist 0 b!"a" .none : Act Bytes Bytes).run idConv queryMem).2).2 0 (queryMem.abs 0) :=
  (C130_sealed_partial idConv ⟨fun v r h => by simpa [idConv] using h, fun a vs r h hm => by
      simp only [idConv, Except.ok.injEq] at h; subst h; simp at hm⟩ queryMem (fun r => 1 ≤ r) 0 queryMem_sealed
    (.step (.step .start (.getlist 0 b!"a" .none) (by simp [Act.needs])) (.change 1 []) (by simp [Act.needs]))).1

/-- Two lists for one key: the last one counts. -/
example :
    let m : Mem Bytes Bytes := { lists := [[.atom b!"1"], [.atom b!"2", .atom b!"3"]], dicts := [{}] }
    (makeDict .immutable [(b!"a", 0), (b!"b", 0), (b!"a", 1)] m).2.abs 1 b!"a" = some [.atom b!"2", .atom b!"3"] ∧
    (makeDict .immutable [(b!"a", 0), (b!"b", 0), (b!"a", 1)] m).2.abs 1 b!"b" = some [.atom b!"1"] := by
  decide +kernel

end Verif
