import Verif.Model.QueryEncoding
import Verif.Props.QueryMap
/-!
# The encoding of a `QueryDict` (C129)
-/

namespace Verif
open Spec Mem

namespace Spec

/-- The encoding is assigned. -/
inductive Assigns : QEvent → Prop
  | mk (e) : Assigns (.assign e)

/-- `update` with these arguments names the key. -/
inductive Updates (m : Mem PyStr PyStr) : UpdArg PyStr PyStr → List (PyStr × Val PyStr) → PyStr → Prop
  | mvd (j kw k) (h : (m.abs j k).isSome) : Updates m (.mvd j) kw k
  | mapping (items kw k) (h : k ∈ items.map Prod.fst) : Updates m (.mapping items) kw k
  | keyword (arg kw k) (ha : arg ≠ .other) (h : k ∈ kw.map Prod.fst) : Updates m arg kw k

/-- The encoding is needed: it is read, or a key and a value are set, appended or set as default, or a key that the
dictionary `i` does not have is given to `setlistdefault` or `update`. -/
inductive Needs (m : Mem PyStr PyStr) (i : Nat) : QEvent → Prop
  | read : Needs m i .read
  | set (k v) : Needs m i (.call (.set k v))
  | setlist (k p) : Needs m i (.call (.setlist k p))
  | append (k v) : Needs m i (.call (.append k v))
  | setdefault (k v) : Needs m i (.call (.setdefault k v))
  | setlistdefault (k p) (h : m.abs i k = none) : Needs m i (.call (.setlistdefault k p))
  | update (arg kw k) (hk : Updates m arg kw k) (h : m.abs i k = none) : Needs m i (.call (.update arg kw))

/-- `DEFAULT_CHARSET` after some events. -/
inductive DefaultIs (d0 : Bytes) : List QEvent → Bytes → Prop
  | same (es) (h : ∀ d, .default d ∉ es) : DefaultIs d0 es d0
  | set (a b d) (h : ∀ d, .default d ∉ b) : DefaultIs d0 (a ++ .default d :: b) d

/-- `EncodingIs after i d0 es e`: the dictionary `i` that was made when `DEFAULT_CHARSET` was `d0` has the encoding `e`
after the events `es`; `after es` is the memory then. -/
inductive EncodingIs (after : List QEvent → Mem PyStr PyStr) (i : Nat) (d0 : Bytes) : List QEvent → Bytes → Prop
  /-- It has never been assigned: what `DEFAULT_CHARSET` was when the dictionary was made. -/
  | made (es) (h : ∀ x ∈ es, ¬ Assigns x) : EncodingIs after i d0 es d0
  /-- The last name assigned. -/
  | assigned (a b e) (h : ∀ x ∈ b, ¬ Assigns x) : EncodingIs after i d0 (a ++ .assign (some e) :: b) e
  /-- `None` has been assigned last: what `DEFAULT_CHARSET` was when the encoding was needed for the first time. -/
  | needed (a b u c d) (h : ∀ x ∈ b ++ u :: c, ¬ Assigns x)
      (hb : ∀ b1 x b2, b = b1 ++ x :: b2 → ¬ Needs (after (a ++ .assign none :: b1)) i x)
      (hu : Needs (after (a ++ .assign none :: b)) i u)
      (hd : DefaultIs d0 (a ++ .assign none :: b) d) : EncodingIs after i d0 (a ++ .assign none :: (b ++ u :: c)) d
  /-- It has not been needed since then: what `DEFAULT_CHARSET` is. -/
  | open (a b d) (h : ∀ x ∈ b, ¬ Assigns x)
      (hb : ∀ b1 x b2, b = b1 ++ x :: b2 → ¬ Needs (after (a ++ .assign none :: b1)) i x)
      (hd : DefaultIs d0 (a ++ .assign none :: b) d) :
      EncodingIs after i d0 (a ++ .assign none :: b) d

end Spec

section
variable {κ α : Type} [DecidableEq κ]

/-- The calls that reach no key that is absent do not look at the conversions. -/
theorem setListDefault_present (K : Conv κ α) {i : Nat} {k : κ} {m : Mem κ α} (p : Val α) (h : m.contains i k = true)
    (hm : m.assertMutable i = .ok ()) (hq : (m.obj i).cls = .query) :
    ∃ r, setListDefault K i k p m = (.ok (.list r), m) := by
  obtain ⟨r, hr⟩ := Option.isSome_iff_exists.1 h
  refine ⟨r, ?_⟩
  simp [setListDefault, hm, ensureList, h, getListLive, hr, hq]

theorem setListDefault_absent {i : Nat} {k : κ} {m : Mem κ α} (p : Val α) (h : m.contains i k = false)
    (hm : (m.obj i).mutable = true) (hq : (m.obj i).cls = .query) (e : Exc) (K : Conv κ α) (hK : ∀ k, K.key k = .error e) :
    (setListDefault K i k p m).1 = .error e := by
  have h1 : m.assertMutable i = .ok () := by simp [assertMutable, hq, hm]
  have h2 : ∀ xs, ((m.alloc xs).2).obj i = m.obj i := fun xs => rfl
  have h3 : ∀ xs, ((m.alloc xs).2).assertMutable i = .ok () := fun xs => h1
  cases p <;> simp [setListDefault, h1, ensureList, h, setList, h2, h3, hq, hK, alloc] <;>
    simp [obj, assertMutable] at * <;> simp [*]

/-- The dictionary is a `QueryDict` that may be changed. -/
structure OpenMut (m : Mem κ α) (i : Nat) : Prop where
  cls : (m.obj i).cls = .query
  mutbl : (m.obj i).mutable = true

theorem OpenMut.assert {m : Mem κ α} {i : Nat} (h : OpenMut m i) : m.assertMutable i = .ok () := by
  simp [assertMutable, h.cls, h.mutbl]

theorem OpenMut.write {m : Mem κ α} {i : Nat} (h : OpenMut m i) (r : Nat) (xs : List (Val α))  : OpenMut (m.write r xs) i := ⟨h.1, h.2⟩

theorem appendAll_present {K K' : Conv κ α} {i : Nat} : ∀ (l : List (κ × Val α)) (m : Mem κ α), OpenMut m i →
    (∀ k ∈ l.map Prod.fst, m.contains i k = true) → ∃ m', OpenMut m' i ∧ m'.contains i = m.contains i ∧
      appendAll K i l m = (.ok (), m') ∧ appendAll K' i l m = (.ok (), m') := by
  intro l
  induction l with
  | nil => intro m ho _; exact ⟨m, ho, rfl, rfl, rfl⟩
  | cons x l ih =>
    intro m ho h
    obtain ⟨k, v⟩ := x
    obtain ⟨r, hr⟩ := setListDefault_present K (k := k) .none (h k (by simp)) ho.assert ho.cls
    obtain ⟨r', hr'⟩ := setListDefault_present K' (k := k) .none (h k (by simp)) ho.assert ho.cls
    have e : r = r' := by
      have h1 := h k (by simp)
      obtain ⟨q, hq⟩ := Option.isSome_iff_exists.1 h1
      simp [setListDefault, ho.assert, ensureList, h1, getListLive, hq, ho.cls] at hr hr'
      exact hr.symm.trans hr'
    subst e
    obtain ⟨m', a, b, c, d⟩ := ih (m.write r (m.elems r ++ [v])) (ho.write _ _) (fun k' hk' => h k' (by
      simp only [List.map_cons, List.mem_cons]; exact .inr hk'))
    exact ⟨m', a, b, by simp [appendAll, appendBase, hr, appendTo, c], by simp [appendAll, appendBase, hr', appendTo, d]⟩

theorem extendAll_present {K K' : Conv κ α} {i : Nat} : ∀ (l : Dict κ Nat) (m : Mem κ α), OpenMut m i →
    (∀ k ∈ l.keys, m.contains i k = true) → ∃ m', OpenMut m' i ∧ m'.contains i = m.contains i ∧
      extendAll K i l m = (.ok (), m') ∧ extendAll K' i l m = (.ok (), m') := by
  intro l
  induction l with
  | nil => intro m ho _; exact ⟨m, ho, rfl, rfl, rfl⟩
  | cons x l ih =>
    intro m ho h
    obtain ⟨k, v⟩ := x
    have hk : m.contains i k = true := h k (by simp [Dict.keys])
    obtain ⟨r, hr⟩ := setListDefault_present K .none hk ho.assert ho.cls
    obtain ⟨r', hr'⟩ := setListDefault_present K' .none hk ho.assert ho.cls
    have e : r = r' := by
      obtain ⟨q, hq⟩ := Option.isSome_iff_exists.1 hk
      simp [setListDefault, ho.assert, ensureList, hk, getListLive, hq, ho.cls] at hr hr'
      exact hr.symm.trans hr'
    subst e
    obtain ⟨m', a, b, c, d⟩ := ih (m.write r (m.elems r ++ m.elems v)) (ho.write _ _) (fun k' hk' => h k' (by
      simp only [Dict.keys, List.map_cons, List.mem_cons]; exact .inr hk'))
    exact ⟨m', a, b, by simp [extendAll, hr, c], by simp [extendAll, hr', d]⟩

theorem appendAll_absent {K : Conv κ α} {e : Exc} (hK : ∀ k, K.key k = .error e) {i : Nat} :
    ∀ (l : List (κ × Val α)) (m : Mem κ α), OpenMut m i → (∃ k ∈ l.map Prod.fst, m.contains i k = false) →
      (appendAll K i l m).1 = .error e := by
  intro l
  induction l with
  | nil => simp
  | cons x l ih =>
    intro m ho h
    obtain ⟨k, v⟩ := x
    cases hk : m.contains i k with
    | false =>
      have := setListDefault_absent .none hk ho.mutbl ho.cls e K hK
      unfold appendAll appendBase
      generalize setListDefault K i k .none m = z at *
      rcases z with ⟨(e' | _), _⟩ <;> simp_all
    | true =>
      obtain ⟨r, hr⟩ := setListDefault_present K .none hk ho.assert ho.cls
      simp only [appendAll, appendBase, hr, appendTo]
      refine ih _ (ho.write _ _) ?_
      obtain ⟨k', h1, h2⟩ := h
      simp only [List.map_cons, List.mem_cons] at h1
      rcases h1 with rfl | h1
      · rw [hk] at h2; cases h2
      · exact ⟨k', h1, h2⟩

theorem extendAll_absent {K : Conv κ α} {e : Exc} (hK : ∀ k, K.key k = .error e) {i : Nat} :
    ∀ (l : Dict κ Nat) (m : Mem κ α), OpenMut m i → (∃ k ∈ l.keys, m.contains i k = false) →
      (extendAll K i l m).1 = .error e := by
  intro l
  induction l with
  | nil => simp [Dict.keys]
  | cons x l ih =>
    intro m ho h
    obtain ⟨k, v⟩ := x
    cases hk : m.contains i k with
    | false =>
      have := setListDefault_absent .none hk ho.mutbl ho.cls e K hK
      unfold extendAll
      generalize setListDefault K i k .none m = z at *
      rcases z with ⟨(e' | _), _⟩ <;> simp_all
    | true =>
      obtain ⟨r, hr⟩ := setListDefault_present K .none hk ho.assert ho.cls
      simp only [extendAll, hr]
      refine ih _ (ho.write _ _) ?_
      obtain ⟨k', h1, h2⟩ := h
      simp only [Dict.keys, List.map_cons, List.mem_cons] at h1
      rcases h1 with rfl | h1
      · rw [hk] at h2; cases h2
      · exact ⟨k', h1, h2⟩
end

theorem updKeys_present {K K' : Conv PyStr PyStr} {i : Nat} {m : Mem PyStr PyStr} (ho : OpenMut m i) (arg : UpdArg PyStr PyStr)
    (kw : List (PyStr × Val PyStr)) (h : ∀ k ∈ updKeys m arg kw, m.contains i k = true) :
    update K i arg kw m = update K' i arg kw m := by
  unfold update
  simp only [ho.cls, reduceCtorEq, if_false]
  cases arg with
  | absent =>
    obtain ⟨m', -, -, h1, h2⟩ := appendAll_present (K := K) (K' := K') kw m ho h
    simp [updateArg, h1, h2]
  | mvd j =>
    obtain ⟨m', a, b, h1, h2⟩ := extendAll_present (K := K) (K' := K') (m.dict j) m ho (fun k hk => h k (by simp [updKeys, hk]))
    obtain ⟨m'', -, -, h3, h4⟩ := appendAll_present (K := K) (K' := K') kw m' a (fun k hk => by
      rw [b]; exact h k (List.mem_append.2 (.inr hk)))
    simp [updateArg, h1, h2, h3, h4]
  | mapping items =>
    obtain ⟨m', a, b, h1, h2⟩ := appendAll_present (K := K) (K' := K') items m ho (fun k hk => h k (List.mem_append.2 (.inl hk)))
    obtain ⟨m'', -, -, h3, h4⟩ := appendAll_present (K := K) (K' := K') kw m' a (fun k hk => by
      rw [b]; exact h k (List.mem_append.2 (.inr hk)))
    simp [updateArg, h1, h2, h3, h4]
  | other => rfl

theorem updKeys_absent {K : Conv PyStr PyStr} {e : Exc} (hK : ∀ k, K.key k = .error e) (he : e ≠ .typeError) {i : Nat}
    {m : Mem PyStr PyStr} (ho : OpenMut m i) (arg : UpdArg PyStr PyStr)
    (kw : List (PyStr × Val PyStr)) (h : ∃ k ∈ updKeys m arg kw, m.contains i k = false) :
    (update K i arg kw m).1 = .error e := by
  unfold update
  simp only [ho.cls, reduceCtorEq, if_false]
  obtain ⟨k, hk, hc⟩ := h
  cases arg with
  | absent => exact appendAll_absent hK kw m ho ⟨k, hk, hc⟩
  | mvd j =>
    by_cases hp : ∀ k ∈ (m.dict j).keys, m.contains i k = true
    · obtain ⟨m', a, b, h1, -⟩ := extendAll_present (K := K) (K' := K) (m.dict j) m ho hp
      simp only [updateArg, h1]
      refine appendAll_absent hK kw m' a ⟨k, ?_, by rw [b]; exact hc⟩
      rcases List.mem_append.1 hk with h | h
      · rw [hp k h] at hc; cases hc
      · exact h
    · simp only [not_forall, Bool.not_eq_true] at hp
      obtain ⟨k', h1, h2⟩ := hp
      have := extendAll_absent hK (m.dict j) m ho ⟨k', h1, h2⟩
      simp only [updateArg]
      generalize extendAll K i (m.dict j) m = z at *
      rcases z with ⟨(e' | _), _⟩ <;> simp_all
  | mapping items =>
    by_cases hp : ∀ k ∈ items.map Prod.fst, m.contains i k = true
    · obtain ⟨m', a, b, h1, -⟩ := appendAll_present (K := K) (K' := K) items m ho hp
      simp only [updateArg, h1]
      refine appendAll_absent hK kw m' a ⟨k, ?_, by rw [b]; exact hc⟩
      rcases List.mem_append.1 hk with h | h
      · rw [hp k h] at hc; cases hc
      · exact h
    · simp only [not_forall, Bool.not_eq_true] at hp
      obtain ⟨k', h1, h2⟩ := hp
      have := appendAll_absent hK items m ho ⟨k', h1, h2⟩
      simp only [updateArg]
      generalize appendAll K i items m = z at *
      rcases z with ⟨(e' | _), _⟩
      · simp only [Except.error.injEq] at this
        subst this
        cases e' <;> simp_all
      · cases this
  | other => simp [updKeys] at hk

/-- `converts` says when a call of a mutable `QueryDict` looks at the encoding: exactly if its outcome depends on the
conversions. -/
theorem converts_iff {i : Nat} {m : Mem PyStr PyStr} (ho : OpenMut m i) (c : Call PyStr PyStr) :
    converts m i c = true ↔ ∃ K K' : Conv PyStr PyStr, call K i c m ≠ call K' i c m := by
  constructor
  · intro h
    have key : ∀ (e : Exc), e ≠ .typeError →
        (call (⟨fun _ => .error e, fun _ => .error e, fun _ => .error e⟩ : Conv PyStr PyStr) i c m).1 = .error e := by
      intro e he
      cases c with
      | set k v => simp [call, setItem, ho.cls, ho.assert]
      | setlist k v => simp [call, setList, ho.cls, ho.assert]
      | append k v => simp [call, appendList, ho.cls, ho.assert]
      | setdefault k v => simp [call, setDefault, ho.cls, ho.assert, drop]
      | setlistdefault k p =>
        have := setListDefault_absent p (by simpa [converts] using h) ho.mutbl ho.cls e
          ⟨fun _ => .error e, fun _ => .error e, fun _ => .error e⟩ (fun _ => rfl)
        simp only [call, drop]
        generalize setListDefault _ i k p m = z at *
        rcases z with ⟨(e' | _), _⟩ <;> simp_all
      | update arg kw =>
        refine updKeys_absent (fun _ => rfl) he ho arg kw ?_
        simpa [converts] using h
      | del k => cases h
      | pop k d => cases h
      | clear => cases h
    refine ⟨⟨fun _ => .error .lookupError, fun _ => .error .lookupError, fun _ => .error .lookupError⟩,
      ⟨fun _ => .error .keyError, fun _ => .error .keyError, fun _ => .error .keyError⟩, fun hh => ?_⟩
    · have h1 := key .lookupError nofun
      have h2 := key .keyError nofun
      rw [hh, h2] at h1
      cases h1
  · rintro ⟨K, K', h⟩
    by_contra hc
    refine h ?_
    cases c with
    | set k v => simp [converts] at hc
    | setlist k v => simp [converts] at hc
    | append k v => simp [converts] at hc
    | setdefault k v => simp [converts] at hc
    | setlistdefault k p =>
      have hk : m.contains i k = true := by simpa [converts] using hc
      simp only [call, setListDefault, ho.assert, ensureList, hk, if_true]
    | update arg kw =>
      refine updKeys_present ho arg kw ?_
      simpa [converts] using hc
    | del k => rfl
    | pop k d => rfl
    | clear => rfl

theorem contains_false {m : Mem PyStr PyStr} {i : Nat} {k : PyStr} : m.contains i k = false ↔ m.abs i k = none := by
  unfold Mem.contains Mem.abs
  cases (m.dict i).get? k <;> simp

theorem mem_updKeys {m : Mem PyStr PyStr} {arg : UpdArg PyStr PyStr} {kw : List (PyStr × Val PyStr)} {k : PyStr} :
    k ∈ updKeys m arg kw ↔ Updates m arg kw k := by
  constructor
  · intro h
    cases arg with
    | absent => exact .keyword _ _ _ nofun h
    | mvd j =>
      rcases List.mem_append.1 h with h | h
      · exact .mvd _ _ _ (by simpa [Mem.abs] using (Dict.get?_isSome _ _).2 h)
      · exact .keyword _ _ _ nofun h
    | mapping items =>
      rcases List.mem_append.1 h with h | h
      · exact .mapping _ _ _ h
      · exact .keyword _ _ _ nofun h
    | other => simp [updKeys] at h
  · intro h
    cases h with
    | mvd j _ _ h => exact List.mem_append.2 (.inl ((Dict.get?_isSome _ _).1 (by simpa [Mem.abs] using h)))
    | mapping items _ _ h => exact List.mem_append.2 (.inl h)
    | keyword _ _ _ ha h =>
      cases arg with
      | absent => exact h
      | mvd j => exact List.mem_append.2 (.inr h)
      | mapping items => exact List.mem_append.2 (.inr h)
      | other => exact absurd rfl ha

theorem needs_call {m : Mem PyStr PyStr} {i : Nat} {c : Call PyStr PyStr} : converts m i c = true ↔ Needs m i (.call c) := by
  constructor
  · intro h
    cases c with
    | set k v => exact .set k v
    | setlist k v => exact .setlist k v
    | append k v => exact .append k v
    | setdefault k v => exact .setdefault k v
    | setlistdefault k p => exact .setlistdefault k p (contains_false.1 (by simpa [converts] using h))
    | update arg kw =>
      simp only [converts, List.any_eq_true, Bool.not_eq_true'] at h
      obtain ⟨k, h1, h2⟩ := h
      exact .update arg kw k (mem_updKeys.1 h1) (contains_false.1 h2)
    | del k => cases h
    | pop k d => cases h
    | clear => cases h
  · intro h
    cases h with
    | setlistdefault k p h => simpa [converts] using contains_false.2 h
    | update arg kw k hk h =>
      simp only [converts, List.any_eq_true, Bool.not_eq_true']
      exact ⟨k, mem_updKeys.2 hk, contains_false.2 h⟩
    | _ => rfl

section
variable {C : Codecs} {i : Nat}

theorem run_append (es fs : List QEvent) (w : QWorld) : QWorld.run C i (es ++ fs) w = QWorld.run C i fs (QWorld.run C i es w) :=
  List.foldl_append ..

theorem step_dflt (w : QWorld) (e : QEvent) (h : ∀ d, e ≠ .default d) : (w.step C i e).dflt = w.dflt := by
  obtain ⟨enc, dflt, mem⟩ := w
  cases e with
  | assign e => rfl
  | default d => exact absurd rfl (h d)
  | read => cases enc <;> rfl
  | call c =>
    simp only [QWorld.step]
    split
    · cases enc <;> rfl
    · rfl

theorem run_dflt {d0 : Bytes} {es : List QEvent} {d : Bytes} (h : DefaultIs d0 es d) (w : QWorld) (hw : w.dflt = d0) :
    (w.run C i es).dflt = d := by
  have quiet : ∀ (es : List QEvent) (w : QWorld), (∀ d, QEvent.default d ∉ es) → (w.run C i es).dflt = w.dflt := by
    intro es
    induction es with
    | nil => intro w _; rfl
    | cons e es ih =>
      intro w h
      have := ih (w.step C i e) (fun d hd => h d (by simp [hd]))
      rw [step_dflt w e (fun d he => h d (by simp [he]))] at this
      exact this
  cases h with
  | same _ h => rw [quiet es w h, hw]
  | set a b _ h =>
    rw [run_append]
    show ((QWorld.run C i a w).step C i (.default d) |>.run C i b).dflt = d
    rw [quiet b _ h]
    rfl

/-- The dictionary is there and mutable. -/
structure Live (i : Nat) (w : QWorld) : Prop where
  wf : w.mem.WF
  mutbl : (w.mem.obj i).mutable = true

theorem step_live (w : QWorld) (e : QEvent) (h : Live i w) : Live i (w.step C i e) := by
  obtain ⟨enc, dflt, mem⟩ := w
  obtain ⟨h1, h2⟩ := h
  simp only at h1 h2
  cases e with
  | assign e => exact ⟨h1, h2⟩
  | default d => exact ⟨h1, h2⟩
  | read => cases enc <;> exact ⟨h1, h2⟩
  | call c =>
    have key : ∀ K, (call K i c mem).2.WF ∧ ((call K i c mem).2.obj i).mutable = true := fun K => by
      have kp := (call_touch K i c mem h1).kept h1
      exact ⟨kp.wf, by rw [kp.mutbl]; exact h2⟩
    simp only [QWorld.step]
    split
    · exact ⟨(key _).1, (key _).2⟩
    · exact ⟨(key _).1, (key _).2⟩

theorem run_live : ∀ (es : List QEvent) (w : QWorld), Live i w → Live i (w.run C i es) := by
  intro es
  induction es with
  | nil => intro w h; exact h
  | cons e es ih => intro w h; exact ih _ (step_live w e h)

theorem step_some {e : Bytes} (w : QWorld) (x : QEvent) (hx : ¬ Assigns x) (h : w.enc = some e) :
    (w.step C i x).enc = some e := by
  obtain ⟨enc, dflt, mem⟩ := w
  simp only at h
  subst h
  cases x with
  | assign v => exact absurd (.mk v) hx
  | default d => rfl
  | read => rfl
  | call c =>
    simp only [QWorld.step]
    split <;> rfl

theorem run_some {e : Bytes} : ∀ (es : List QEvent) (w : QWorld), (∀ x ∈ es, ¬ Assigns x) → w.enc = some e →
    (w.run C i es).enc = some e := by
  intro es
  induction es with
  | nil => intro w _ h; exact h
  | cons x es ih => intro w hx h; exact ih _ (fun y hy => hx y (by simp [hy])) (step_some w x (hx x (by simp)) h)

theorem step_none (w : QWorld) (x : QEvent) (hx : ¬ Assigns x) (hn : ¬ Needs w.mem i x) (h : w.enc = none) :
    (w.step C i x).enc = none := by
  obtain ⟨enc, dflt, mem⟩ := w
  simp only at h
  subst h
  cases x with
  | assign v => exact absurd (.mk v) hx
  | default d => rfl
  | read => exact absurd .read hn
  | call c =>
    have : converts mem i c = false := by
      rw [← Bool.not_eq_true, needs_call]
      exact hn
    simp [QWorld.step, this]

theorem run_none : ∀ (es : List QEvent) (w : QWorld), (∀ x ∈ es, ¬ Assigns x) →
    (∀ b1 x b2, es = b1 ++ x :: b2 → ¬ Needs (w.run C i b1).mem i x) → w.enc = none → (w.run C i es).enc = none := by
  intro es
  induction es with
  | nil => intro w _ _ h; exact h
  | cons x es ih =>
    intro w hx hn h
    refine ih _ (fun y hy => hx y (by simp [hy])) (fun b1 y b2 hy => ?_) (step_none w x (hx x (by simp)) (hn [] x es rfl) h)
    exact hn (x :: b1) y b2 (by simp [hy])

theorem step_needs (w : QWorld) (x : QEvent) (hn : Needs w.mem i x) (hl : Live i w) (h : w.enc = none) :
    (w.step C i x).enc = some w.dflt := by
  obtain ⟨enc, dflt, mem⟩ := w
  obtain ⟨h1, h2⟩ := hl
  simp only at h h2
  subst h
  cases x with
  | read => rfl
  | call c =>
    have := needs_call.2 hn
    simp only at this
    simp [QWorld.step, this, h2, QWorld.encoding]
  | assign e => cases hn
  | default e => cases hn

theorem encodingIs_run {d0 : Bytes} {es : List QEvent} {e : Bytes} (w : QWorld)
    (h : EncodingIs (fun es => (w.run C i es).mem) i d0 es e) (hl : Live i w)
    (hd : w.dflt = d0) (he : w.enc = some d0) : (w.run C i es).encoding.1 = e := by
  have some_ : ∀ {w : QWorld} {e}, w.enc = some e → w.encoding.1 = e := by
    intro w e h; unfold QWorld.encoding; rw [h]
  have none_ : ∀ {w : QWorld}, w.enc = none → w.encoding.1 = w.dflt := by
    intro w h; unfold QWorld.encoding; rw [h]
  have quiet : ∀ (a b : List QEvent), (∀ x ∈ b, ¬ Assigns x) →
      (∀ b1 x b2, b = b1 ++ x :: b2 → ¬ Needs (w.run C i (a ++ .assign none :: b1)).mem i x) →
      (w.run C i (a ++ .assign none :: b)).enc = none := by
    intro a b h hb
    rw [run_append]
    refine run_none b ((w.run C i a).step C i (.assign none)) h (fun b1 x b2 hx => ?_) rfl
    have := hb b1 x b2 hx
    rw [run_append] at this
    exact this
  cases h with
  | made _ h => exact some_ (run_some es w h he)
  | assigned a b _ h =>
    rw [run_append]
    exact some_ (run_some b ((w.run C i a).step C i (.assign (some e))) h rfl)
  | needed a b u c d h hb hu hd' =>
    have e1 := run_dflt (C := C) (i := i) hd' w hd
    have e2 := run_live (C := C) (a ++ .assign none :: b) w hl
    have e3 := quiet a b (fun x hx => h x (by simp [hx])) hb
    have e4 : a ++ .assign none :: (b ++ u :: c) = (a ++ .assign none :: b) ++ u :: c := by simp
    rw [e4, run_append]
    refine some_ (run_some c (QWorld.step C i _ u) (fun x hx => h x (by simp [hx])) ?_)
    rw [step_needs _ u hu e2 e3, e1]
  | «open» a b d h hb hd' =>
    have e1 := run_dflt (C := C) (i := i) hd' w hd
    rw [none_ (quiet a b h hb), e1]

theorem last_of {P : QEvent → Prop} : ∀ es : List QEvent, (∀ x ∈ es, ¬ P x) ∨ ∃ a x b, es = a ++ x :: b ∧ P x ∧ ∀ y ∈ b, ¬ P y := by
  intro es
  induction es with
  | nil => simp
  | cons e es ih =>
    rcases ih with h | ⟨a, x, b, rfl, hx, hb⟩
    · by_cases he : P e
      · exact .inr ⟨[], e, es, rfl, he, h⟩
      · exact .inl (by simpa [he] using h)
    · exact .inr ⟨e :: a, x, b, rfl, hx, hb⟩

theorem first_of {P : List QEvent → QEvent → Prop} : ∀ es : List QEvent, (∀ b1 x b2, es = b1 ++ x :: b2 → ¬ P b1 x) ∨
    ∃ a x b, es = a ++ x :: b ∧ P a x ∧ ∀ b1 y b2, a = b1 ++ y :: b2 → ¬ P b1 y := by
  intro es
  induction es generalizing P with
  | nil => exact .inl (by simp)
  | cons e es ih =>
    by_cases he : P [] e
    · exact .inr ⟨[], e, es, rfl, he, by simp⟩
    · rcases ih (P := fun b x => P (e :: b) x) with h | ⟨a, x, b, rfl, hx, hb⟩
      · refine .inl fun b1 x b2 h1 => ?_
        cases b1 with
        | nil => cases h1; exact he
        | cons y b1 => cases h1; exact h b1 x b2 rfl
      · refine .inr ⟨e :: a, x, b, rfl, hx, fun b1 y b2 h1 => ?_⟩
        cases b1 with
        | nil => cases h1; exact he
        | cons z b1 => cases h1; exact hb b1 y b2 rfl

theorem defaultIs_total (d0 : Bytes) (es : List QEvent) : ∃ d, DefaultIs d0 es d := by
  rcases last_of (P := fun x => ∃ d, x = .default d) es with h | ⟨a, x, b, rfl, ⟨d, rfl⟩, h⟩
  · exact ⟨d0, .same _ fun d hd => h _ hd ⟨d, rfl⟩⟩
  · exact ⟨d, .set a b d fun d hd => h _ hd ⟨d, rfl⟩⟩

theorem encodingIs_total (after : List QEvent → Mem PyStr PyStr) (i : Nat) (d0 : Bytes) (es : List QEvent) :
    ∃ e, EncodingIs after i d0 es e := by
  rcases last_of (P := Assigns) es with h | ⟨a, x, b, rfl, ⟨e⟩, h⟩
  · exact ⟨d0, .made es h⟩
  · cases e with
    | some e => exact ⟨e, .assigned a b e h⟩
    | none =>
      rcases first_of (P := fun b1 x => Needs (after (a ++ .assign none :: b1)) i x) b with hb | ⟨b1, u, c, rfl, hu, hb⟩
      · obtain ⟨d, hd⟩ := defaultIs_total d0 (a ++ .assign none :: b)
        exact ⟨d, .open a b d h hb hd⟩
      · obtain ⟨d, hd⟩ := defaultIs_total d0 (a ++ .assign none :: b1)
        exact ⟨d, .needed a b1 u c d h hb hu hd⟩

theorem init_made {S : Settings} {qs : Option PyStr} {mutable : Bool} {enc : Option Bytes} {m : Mem PyStr PyStr} {w : QWorld}
    (h : initQueryDict C (.settings S) qs mutable enc m = .ok (i, w)) :
    newQueryDict C S qs mutable m = (.ok i, w.mem) ∧ w.enc = some S.defaultCharset ∧ w.dflt = S.defaultCharset := by
  unfold initQueryDict at h
  simp only at h
  generalize newQueryDict C S qs mutable m = z at *
  rcases z with ⟨(e | j), m'⟩
  · cases h
  · simp only [Except.ok.injEq, Prod.mk.injEq] at h
    obtain ⟨rfl, rfl⟩ := h
    exact ⟨rfl, rfl, rfl⟩

/-- **C129, the part that holds.** Whatever happens to a mutable `QueryDict`: the encoding is the last name that was
assigned; before any assignment it is what `DEFAULT_CHARSET` was when the dictionary was made, also if
`DEFAULT_CHARSET` changes; and after `None` was assigned it is what `DEFAULT_CHARSET` is at the first need, and stays
so. -/
theorem C129_encoding_partial {S : Settings} {qs : Option PyStr} {enc : Option Bytes} {m : Mem PyStr PyStr} (wf : m.WF) {w : QWorld}
    (h : initQueryDict C (.settings S) qs true enc m = .ok (i, w)) (es : List QEvent) (e : Bytes) :
    (w.run C i es).encoding.1 = e ↔ EncodingIs (fun es => (w.run C i es).mem) i S.defaultCharset es e := by
  obtain ⟨h1, h2, h3⟩ := init_made h
  obtain ⟨k1, k2, -⟩ := newQueryDict_open wf h1
  have key : ∀ e, EncodingIs (fun es => (w.run C i es).mem) i S.defaultCharset es e → (w.run C i es).encoding.1 = e :=
    fun e he => encodingIs_run w he ⟨k1, k2.mutbl⟩ h3 h2
  constructor
  · rintro rfl
    obtain ⟨e, he⟩ := encodingIs_total (fun es => (w.run C i es).mem) i S.defaultCharset es
    rw [key e he]
    exact he
  · exact key e

end

/-! ### What the encoding does -/

/-- Python knows the encoding. -/
def KnownEnc (e : Bytes) : Prop := ∃ k, lookupEnc e = some k

/-- **C129, the part that holds.** What is done with a key or a value: `unicode` is stored as it is; so is a native string
in ASCII if the encoding is known; other native strings are refused with `UnicodeDecodeError`, and all native
strings with `LookupError` if the encoding is unknown. -/
theorem C129_converts_partial (e : Bytes) :
    (∀ s, bytesToTextV pyCodecs e (.u s) = .ok (.u s)) ∧
    (KnownEnc e → ∀ s, ((∀ c ∈ s, c < 128) → bytesToTextV pyCodecs e (.b s) = .ok (.b s)) ∧
      ((∃ c ∈ s, 128 ≤ c) → bytesToTextV pyCodecs e (.b s) = .error .unicodeDecodeError)) ∧
    (¬ KnownEnc e → ∀ s, bytesToTextV pyCodecs e (.b s) = .error .lookupError) := by
  refine ⟨fun s => rfl, ?_, ?_⟩
  · rintro ⟨k, hk⟩ s
    constructor
    · intro h
      have : Py.isAscii s = true := by simpa [Py.isAscii] using h
      simp [bytesToTextV, pyCodecs, hk, this]
    · rintro ⟨c, hc, h⟩
      have : Py.isAscii s = false := by
        rw [← Bool.not_eq_true]
        intro ha
        simp only [Py.isAscii, List.all_eq_true, decide_eq_true_eq] at ha
        exact absurd (ha c hc) (by simpa using h)
      simp [bytesToTextV, pyCodecs, hk, this]
  · intro h s
    have : lookupEnc e = none := by
      cases hk : lookupEnc e with
      | none => rfl
      | some k => exact absurd ⟨k, hk⟩ h
    simp [bytesToTextV, pyCodecs, this]

theorem queryConv_known {e f : Bytes} (he : KnownEnc e) (hf : KnownEnc f) : queryConv pyCodecs e = queryConv pyCodecs f := by
  obtain ⟨x, hx⟩ := he
  obtain ⟨y, hy⟩ := hf
  have : bytesToTextV pyCodecs e = bytesToTextV pyCodecs f := by
    funext s
    cases s with
    | u s => rfl
    | b s => simp [bytesToTextV, pyCodecs, hx, hy]
  simp only [queryConv, this]

/-- The calls among the events. -/
def callsOf : List QEvent → List (Call PyStr PyStr)
  | [] => []
  | .call c :: es => c :: callsOf es
  | _ :: es => callsOf es

/-- Only known encodings are named. -/
def NamesKnown (es : List QEvent) : Prop := (∀ e, .assign (some e) ∈ es → KnownEnc e) ∧ ∀ e, .default e ∈ es → KnownEnc e

theorem run_calls {i : Nat} {e0 : Bytes} (h0 : KnownEnc e0) : ∀ (es : List QEvent) (w : QWorld), NamesKnown es →
    KnownEnc w.dflt → (∀ e, w.enc = some e → KnownEnc e) →
    (w.run pyCodecs i es).mem = runCalls (queryConv pyCodecs e0) i (callsOf es) w.mem := by
  intro es
  induction es with
  | nil => intro w _ _ _; rfl
  | cons x es ih =>
    rintro ⟨enc, dflt, mem⟩ ⟨hn1, hn2⟩ hd he
    have hn : NamesKnown es := ⟨fun e h => hn1 e (by simp [h]), fun e h => hn2 e (by simp [h])⟩
    cases x with
    | assign v =>
      exact ih ⟨v, dflt, mem⟩ hn hd (by rintro e rfl; exact hn1 e (by simp))
    | default d => exact ih ⟨enc, d, mem⟩ hn (hn2 d (by simp)) he
    | read =>
      cases enc with
      | none => exact ih ⟨some dflt, dflt, mem⟩ hn hd (by rintro e ⟨⟩; exact hd)
      | some v => exact ih ⟨some v, dflt, mem⟩ hn hd he
    | call c =>
      have hk : KnownEnc (QWorld.encoding ⟨enc, dflt, mem⟩).1 := by
        cases enc with
        | none => exact hd
        | some v => exact he v rfl
      show (QWorld.run pyCodecs i es (QWorld.step pyCodecs i _ (.call c))).mem = _
      simp only [QWorld.step, callsOf, runCalls]
      split
      · rw [queryConv_known hk h0]
        have := ih { (QWorld.encoding ⟨enc, dflt, mem⟩).2 with mem := (call (queryConv pyCodecs e0) i c mem).2 } hn
          (by cases enc <;> exact hd) (by
            cases enc with
            | none => rintro e ⟨⟩; exact hd
            | some v => exact he)
        exact this
      · rw [queryConv_known hd h0]
        exact ih ⟨enc, dflt, (call (queryConv pyCodecs e0) i c mem).2⟩ hn hd he

/-- **C129 is false of the code**: as long as they are known, the encodings make no difference to what is stored.
Whatever is assigned to `encoding` and to `DEFAULT_CHARSET` before, between and after the calls, the same calls
leave the same contents. -/
theorem C129_no_difference {i j : Nat} {S T : Settings} {qs : Option PyStr} {enc enc' : Option Bytes}
    {m : Mem PyStr PyStr} {w w' : QWorld} (hS : KnownEnc S.defaultCharset) (hT : KnownEnc T.defaultCharset)
    (h : initQueryDict pyCodecs (.settings S) qs true enc m = .ok (i, w))
    (h' : initQueryDict pyCodecs (.settings T) qs true enc' m = .ok (j, w')) (hm : w.mem = w'.mem)
    (es fs : List QEvent) (hes : NamesKnown es) (hfs : NamesKnown fs) (hc : callsOf es = callsOf fs) :
    i = j ∧ (w.run pyCodecs i es).mem = (w'.run pyCodecs i fs).mem := by
  obtain ⟨a1, a2, a3⟩ := init_made h
  obtain ⟨b1, b2, b3⟩ := init_made h'
  refine ⟨?_, ?_⟩
  · have len : ∀ {S : Settings} {k} {m' : Mem PyStr PyStr}, newQueryDict pyCodecs S qs true m = (.ok k, m') → k = m.dicts.length := by
      intro S k m' h
      unfold newQueryDict at h
      simp only at h
      split at h
      · cases h
      · split at h
        · cases h
        · split at h <;> cases h
          rfl
    rw [len a1, len b1]
  · rw [run_calls hS es w hes (by rw [a3]; exact hS) (by rw [a2]; rintro e ⟨⟩; exact hS),
      run_calls hS fs w' hfs (by rw [b3]; exact hT) (by rw [b2]; rintro e ⟨⟩; exact hT), hc, hm]

/-- **C129 is false of the code**: the argument `encoding` of the constructor is ignored. -/
theorem C129_argument_ignored (C : Codecs) (S : QSettings) (qs : Option PyStr) (mutable : Bool) (e e' : Option Bytes)
    (m : Mem PyStr PyStr) : initQueryDict C S qs mutable e m = initQueryDict C S qs mutable e' m := rfl

theorem C129_argument_refuted : ¬ ∀ (C : Codecs) (S : Settings) (qs : Option PyStr) (mutable : Bool) (e : Bytes)
    (m : Mem PyStr PyStr) (i : Nat) (w : QWorld),
    initQueryDict C (.settings S) qs mutable (some e) m = .ok (i, w) → w.encoding.1 = e := by
  intro h
  have := h pyCodecs {} none true b!"utf-8" {} 0 _ rfl
  exact absurd this (by decide +kernel)

/-- **C129 is false of the code**: `fromkeys` always raises `AttributeError`. -/
theorem C129_fromkeys_refuted (C : Codecs) (keys : List PyStr) (value : Val PyStr) (mutable : Bool) (e : Option Bytes)
    (m : Mem PyStr PyStr) : fromKeys C keys value mutable e m = .error .attributeError := rfl

/-- **C129 is false of the code**: `q.encoding = 'utf-8'; q['a'] = 'é'` (in UTF-8) raises `UnicodeDecodeError`. -/
theorem C129_bytes_refuted :
    let w : QWorld := ⟨some b!"utf-8", b!"iso-8859-1", ({} : Mem PyStr PyStr).newDict .query true⟩
    (call (queryConv pyCodecs w.encoding.1) 0 (.set (.b b!"a") (.atom (.b [195, 169]))) w.mem).1 = .error .unicodeDecodeError := by
  rfl

/-! ### Examples -/

/-- `QueryDict(settings, 'a=1', mutable=True)`. -/
def encodedDict : Nat × QWorld :=
  ((initQueryDict pyCodecs (.settings {}) (some (.b b!"a=1")) true (some b!"utf-8") {}).toOption).getD (7, ⟨none, [], {}⟩)

/-- `None` is assigned, `DEFAULT_CHARSET` changes before and after the encoding is needed. -/
def encodedLife : List QEvent :=
  [.assign (some b!"ascii"), .assign none, .default b!"utf-8", .call (.pop (.u [97]) none),
    .call (.append (.u [98]) (.atom (.b b!"x"))), .default b!"latin-1", .read]

example : initQueryDict pyCodecs (.settings {}) (some (.b b!"a=1")) true (some b!"utf-8") {} = .ok encodedDict := by rfl

example (after : List QEvent → Mem PyStr PyStr) : EncodingIs after 0 b!"iso-8859-1" encodedLife b!"utf-8" :=
  .needed [.assign (some b!"ascii")] [.default b!"utf-8", .call (.pop (.u [97]) none)] _ [.default b!"latin-1", .read] _
    (by rintro x hx ⟨e⟩; simp at hx) (by
      intro b1 x b2 hx hn
      have : x ∈ ([.default b!"utf-8", .call (.pop (.u [97]) none)] : List QEvent) := by rw [hx]; simp
      simp at this
      rcases this with rfl | rfl <;> cases hn) (.append _ _)
    (.set [.assign (some b!"ascii"), .assign none] [.call (.pop (.u [97]) none)] _ (by simp))

/-- `update` needs the encoding for a key that is absent, not for one that is there. -/
example : (encodedDict.2.run pyCodecs encodedDict.1 [.assign none, .call (.update (.mapping [(.u [97], .atom (.b b!"2"))]) []),
      .default b!"utf-8"]).encoding.1 = b!"utf-8" ∧
    (encodedDict.2.run pyCodecs encodedDict.1 [.assign none, .call (.update (.mapping [(.u [98], .atom (.b b!"2"))]) []),
      .default b!"utf-8"]).encoding.1 = ({} : Settings).defaultCharset := by decide +kernel

example : (encodedDict.2.run pyCodecs encodedDict.1 encodedLife).encoding.1 = b!"utf-8" := by decide +kernel

/-- The hypotheses of `C129_encoding_partial` can be met. -/
example (es : List QEvent) (e : Bytes) :=
  C129_encoding_partial (C := pyCodecs) (S := {}) (qs := some (.b b!"a=1")) (enc := some b!"utf-8") (m := {})
    ⟨fun i => by simp [Mem.dict, Mem.obj, Dict.keys], fun i k r hr => by simp [Mem.dict, Mem.obj, Dict.get?] at hr,
      fun i k i' k' r hr => by simp [Mem.dict, Mem.obj, Dict.get?] at hr⟩ (i := encodedDict.1) (w := encodedDict.2) rfl es e

example : KnownEnc b!"UTF_8" ∧ ¬ KnownEnc b!"klingon" := by
  refine ⟨⟨.utf8, by decide +kernel⟩, ?_⟩
  rintro ⟨k, hk⟩
  revert hk
  have : lookupEnc b!"klingon" = none := by decide +kernel
  rw [this]
  nofun

/-- The hypotheses of `C129_no_difference` can be met. -/
example : (encodedDict.2.run pyCodecs 0 encodedLife).mem =
    (encodedDict.2.run pyCodecs 0 [.call (.pop (.u [97]) none), .call (.append (.u [98]) (.atom (.b b!"x")))]).mem := by
  refine (C129_no_difference (i := 0) (S := {}) (T := {}) (qs := some (.b b!"a=1")) (enc := some b!"utf-8") (enc' := some b!"utf-8")
    (m := {}) (w := encodedDict.2) (w' := encodedDict.2) ⟨.latin1, by decide +kernel⟩ ⟨.latin1, by decide +kernel⟩ rfl rfl rfl encodedLife
    [.call (.pop (.u [97]) none), .call (.append (.u [98]) (.atom (.b b!"x")))] ⟨?_, ?_⟩ ⟨?_, ?_⟩ rfl).2
  · intro e he
    simp [encodedLife] at he
    subst he
    exact ⟨.ascii, by decide +kernel⟩
  · intro e he
    simp [encodedLife] at he
    rcases he with rfl | rfl
    · exact ⟨.utf8, by decide +kernel⟩
    · exact ⟨.latin1, by decide +kernel⟩
  · intro e he
    simp at he
  · intro e he
    simp at he

end Verif
