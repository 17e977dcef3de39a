import Verif.Model.FormDict
import Verif.Props.Files
import Verif.Props.QueryMap
/-!
# The fields of a form: which get into `POST` (C132), and `POST` as an object (C84)
-/

namespace Verif
open Spec

/-! ## The dictionary in memory -/

/-- The object at `i` holds the fields `post`: the same keys, each with a list of the same items. -/
structure Spec.HoldsForm (m : Mem Bytes PostItem) (i : Nat) (post : MVD PostItem) : Prop where
  keys : (m.dict i).keys = Dict.keys post
  lists : ∀ k, m.abs i k = (Dict.get? post k).map (List.map Val.atom)

section
open Mem

theorem Spec.HoldsForm.congr {m m' : Mem Bytes PostItem} {i : Nat} {post : MVD PostItem} (h : HoldsForm m i post)
    (h1 : m'.dict i = m.dict i) (h2 : m'.abs i = m.abs i) : HoldsForm m' i post :=
  ⟨by rw [h1]; exact h.keys, fun k => by rw [h2]; exact h.lists k⟩

theorem Spec.HoldsForm.none {m : Mem Bytes PostItem} {i : Nat} {post : MVD PostItem} (h : HoldsForm m i post) {k : Bytes}
    (hk : Dict.get? post k = none) : (m.dict i).get? k = none := by
  have := h.lists k
  rw [hk] at this
  unfold Mem.abs at this
  cases hg : (m.dict i).get? k with
  | none => rfl
  | some r => rw [hg] at this; cases this

theorem Spec.HoldsForm.some {m : Mem Bytes PostItem} {i : Nat} {post : MVD PostItem} (h : HoldsForm m i post) {k : Bytes}
    {xs : List PostItem} (hk : Dict.get? post k = .some xs) :
    ∃ r, (m.dict i).get? k = .some r ∧ m.elems r = xs.map Val.atom := by
  have := h.lists k
  rw [hk] at this
  unfold Mem.abs at this
  cases hg : (m.dict i).get? k with
  | none => rw [hg] at this; cases this
  | some r => rw [hg] at this; exact ⟨r, rfl, by simpa using this⟩

/-- A new list under a key. -/
theorem Spec.HoldsForm.put {m : Mem Bytes PostItem} (wf : m.WF) {i : Nat} (hi : i < m.dicts.length) {post : MVD PostItem}
    (h : HoldsForm m i post) (k : Bytes) (xs : List PostItem) :
    HoldsForm (m.put i k (xs.map Val.atom)) i (Dict.set post k xs) := by
  refine ⟨?_, fun k' => ?_⟩
  · rw [dict_put, if_pos ⟨rfl, hi⟩, Dict.keys_set, Dict.keys_set, h.keys]
  · rw [abs_put wf hi, Dict.get?_set]
    unfold AMap.upd
    by_cases hk : k' = k
    · subst hk; simp
    · rw [if_neg hk, if_neg (Ne.symm hk)]; exact h.lists k'

/-- Other elements in the list of a key. -/
theorem Spec.HoldsForm.write {m : Mem Bytes PostItem} (wf : m.WF) {i : Nat} {post : MVD PostItem}
    (h : HoldsForm m i post) {k : Bytes} {r : Nat} (hr : (m.dict i).get? k = .some r) (xs : List PostItem) :
    HoldsForm (m.write r (xs.map Val.atom)) i (Dict.set post k xs) := by
  have hk : k ∈ Dict.keys post := by
    rw [← h.keys, ← Dict.get?_isSome, hr]; rfl
  refine ⟨?_, fun k' => ?_⟩
  · rw [dict_write, Dict.keys_set, if_pos hk, h.keys]
  · rw [abs_write wf hr, Dict.get?_set]
    unfold AMap.upd
    by_cases hk : k' = k
    · subst hk; simp
    · rw [if_neg hk, if_neg (Ne.symm hk)]; exact h.lists k'

/-- What `appendlist` of the `QueryDict` of a form does, for every charset. -/
theorem appendList_form (C : Codecs) (S : Settings) {m : Mem Bytes PostItem} (wf : m.WF) {i : Nat} (o : OpenQ m i)
    {post : MVD PostItem} (h : HoldsForm m i post) (name : Bytes) (item : PostItem) :
    ∃ m', m'.WF ∧ OpenQ m' i ∧
      match postAppend C S post name item with
      | .error e => Mem.appendList (formConv C S) i name (.atom item) m = (.error e, m') ∧ HoldsForm m' i post
      | .ok post' => Mem.appendList (formConv C S) i name (.atom item) m = (.ok (), m') ∧ HoldsForm m' i post' := by
  unfold postAppend bytesToText Mem.appendList
  have K : ∀ b, (formConv C S).key b = C.strEncode S.defaultCharset b := fun _ => rfl
  have V : ∀ v, (formConv C S).val v = .ok v := fun _ => rfl
  rw [o.assert]
  simp only [o.cls, if_true, K, V]
  cases hn : C.strEncode S.defaultCharset name with
  | error e => exact ⟨m, wf, o, rfl, h⟩
  | ok key =>
    simp only
    cases hg : Dict.get? post key with
    | some xs =>
      obtain ⟨r, hr, he⟩ := h.some hg
      have t : Touch i m (m.write r (m.elems r ++ [.atom item])) := .write _ _ _ _ hr
      refine ⟨_, (t.kept wf).wf, o.of_kept (t.kept wf), ?_⟩
      simp only [Option.isSome_some, if_true]
      refine ⟨?_, ?_⟩
      · unfold appendBase
        rw [setListDefault_there o hr]
        rfl
      · have := h.write wf hr (xs ++ [item])
        rw [List.map_append, ← he] at this
        simpa [MVD.append, hg] using this
    | none =>
      have hr := h.none hg
      have ha : (m.abs i key).isSome = false := by unfold Mem.abs; simp [hr]
      simp only [Option.isSome_none, Bool.false_eq_true, if_false]
      cases hk : C.strEncode S.defaultCharset key with
      | error e =>
        have t : Touch i m (m.alloc []).2 := .alloc _ _
        refine ⟨_, (t.kept wf).wf, o.of_kept (t.kept wf), ?_, ?_⟩
        · unfold appendBase
          rw [setListDefault_refused o ha (by rw [K]; exact hk)]
        · exact h.congr (m' := (m.alloc []).2) rfl (abs_alloc wf _ _)
      | ok key' =>
        have ta : Touch i m (m.alloc []).2 := .alloc _ _
        have tp : Touch i m ((m.alloc []).2.put i key' []) := .trans ta (.put _ _ _)
        have wa := (ta.kept wf).wf
        have hla : i < (m.alloc []).2.dicts.length := o.lt
        have hp : HoldsForm ((m.alloc []).2.put i key' []) i (Dict.set post key' []) :=
          (h.congr (m' := (m.alloc []).2) rfl (abs_alloc wf _ _)).put wa hla key' []
        have hd : ((m.alloc []).2.put i key' []).dict i = (m.dict i).set key' (m.alloc []).2.lists.length := by
          rw [dict_put, if_pos ⟨rfl, hla⟩]; rfl
        have op : OpenQ ((m.alloc []).2.put i key' []) i := o.of_kept (tp.kept wf)
        have he : ensureList (formConv C S) i key .none m = (.ok (), (m.alloc []).2.put i key' []) := by
          have h1 : (m.alloc []).2.assertMutable i = .ok () := o.assert
          have h2 : ((m.alloc []).2.obj i).cls = .query := o.cls
          have h3 : ((m.alloc []).2).elems m.lists.length = [] := elems_alloc_new m []
          unfold ensureList
          rw [contains_iff, ha]
          simp only [Mem.alloc] at *
          simp [setList, h1, h2, h3, formConv, hk, convAll]
        by_cases hkk : key' = key
        · subst hkk
          have hg2 : (((m.alloc []).2.put i key' []).dict i).get? key' = .some (m.alloc []).2.lists.length := by
            rw [hd, Dict.get?_set, if_pos rfl]
          have e2 : ((m.alloc []).2.put i key' []).elems (m.alloc []).2.lists.length = [] := elems_put_new _ _ _ _
          have tw : Touch i m (((m.alloc []).2.put i key' []).write (m.alloc []).2.lists.length [.atom item]) :=
            .trans tp (.write _ _ _ _ hg2)
          refine ⟨_, (tw.kept wf).wf, o.of_kept (tw.kept wf), ?_⟩
          simp only [if_true]
          refine ⟨?_, ?_⟩
          · unfold appendBase setListDefault
            rw [o.assert, he]
            simp only [getListLive, hg2, op.cls]
            simp [appendTo, e2]
          · have := hp.write (tp.kept wf).wf hg2 [item]
            have e3 : Dict.set (Dict.set post key' []) key' [item] = MVD.append post key' item := by
              unfold MVD.append
              rw [hg]
              clear * -
              induction post with
              | nil => simp [Dict.set]
              | cons p t ih =>
                obtain ⟨a, b⟩ := p
                unfold Dict.set
                by_cases h : a = key'
                · simp [h, Dict.set]
                · simp only [h, if_false, Dict.set, ih]
            rw [e3] at this
            simpa using this
        · have hg2 : (((m.alloc []).2.put i key' []).dict i).get? key = .none := by
            rw [hd, Dict.get?_set, if_neg hkk, hr]
          have t3 : Touch i m (((m.alloc []).2.put i key' []).alloc []).2 := .trans tp (.alloc _ _)
          have hfree : ∀ j k, ((((m.alloc []).2.put i key' []).alloc []).2.dict j).get? k ≠
              .some ((m.alloc []).2.put i key' []).lists.length := by
            intro j k hx
            rw [dict_alloc] at hx
            have := (tp.kept wf).wf.valid _ _ _ hx
            omega
          have tw : Touch i m ((((m.alloc []).2.put i key' []).alloc []).2.write
              ((m.alloc []).2.put i key' []).lists.length [.atom item]) := .trans t3 (.writeFree _ _ _ hfree)
          have e2 : (((m.alloc []).2.put i key' []).alloc []).2.elems ((m.alloc []).2.put i key' []).lists.length = [] :=
            elems_alloc_new _ _
          have oc : ((((m.alloc []).2.put i key' []).alloc []).2.obj i).cls = .query := op.cls
          refine ⟨_, (tw.kept wf).wf, o.of_kept (tw.kept wf), ?_⟩
          simp only [if_neg hkk]
          refine ⟨?_, ?_⟩
          · unfold appendBase setListDefault
            rw [o.assert, he]
            simp only [getListLive, hg2]
            generalize hq : (m.alloc []).2.put i key' [] = q at *
            have : (q.alloc []) = (q.lists.length, (q.alloc []).2) := rfl
            rw [this]
            simp only [oc]
            simp [appendTo, e2]
          · refine hp.congr rfl ?_
            rw [abs_write_free (fun k => hfree i k), abs_alloc (tp.kept wf).wf]

end

/-! ## C132 -/

/-- Fields put into a form one after the other. -/
def Spec.putFields (C : Codecs) (S : Settings) : List (Bytes × PostItem) → MVD PostItem → Except Exc (MVD PostItem)
  | [], post => .ok post
  | (name, item) :: t, post =>
    match postAppend C S post name item with
    | .error e => .error e
    | .ok post => putFields C S t post

theorem putFields_append {C : Codecs} {S : Settings} (l l' : List (Bytes × PostItem)) {post post' : MVD PostItem}
    (h : putFields C S l post = .ok post') : putFields C S (l ++ l') post = putFields C S l' post' := by
  induction l generalizing post with
  | nil => cases h; rfl
  | cons p t ih =>
    obtain ⟨name, item⟩ := p
    simp only [putFields, List.cons_append] at h ⊢
    cases hp : postAppend C S post name item with
    | error e => rw [hp] at h; cases h
    | ok post1 => rw [hp] at h; exact ih h

theorem formAppends_works (C : Codecs) (S : Settings) {i : Nat} (l : List (Bytes × PostItem)) {post post' : MVD PostItem}
    (hl : putFields C S l post = .ok post') {m : Mem Bytes PostItem} (wf : m.WF) (o : OpenQ m i)
    (h : HoldsForm m i post) :
    ∃ m', formAppends C S i l m = (.ok (), m') ∧ m'.WF ∧ OpenQ m' i ∧ HoldsForm m' i post' := by
  induction l generalizing m post with
  | nil => cases hl; exact ⟨m, rfl, wf, o, h⟩
  | cons p t ih =>
    obtain ⟨name, item⟩ := p
    simp only [putFields] at hl
    obtain ⟨m', wf', o', h'⟩ := appendList_form C S wf o h name item
    cases hp : postAppend C S post name item with
    | error e => rw [hp] at hl; cases hl
    | ok post1 =>
      rw [hp] at hl h'
      simp only at h'
      simp only [formAppends, h'.1]
      exact ih hl wf' o' h'.2

/-- The object that holds a form. -/
theorem formDict_works (C : Codecs) (S : Settings) (hq : emptyQueryDict C S = .ok ()) (l : List (Bytes × PostItem))
    {post : MVD PostItem} (hl : putFields C S l [] = .ok post) {m : Mem Bytes PostItem} (wf : m.WF) :
    ∃ i m', formDict C S l m = (.ok i, m') ∧ HoldsForm m' i post ∧ (m'.obj i).cls = .query ∧
      (m'.obj i).mutable = false := by
  have wf2 : (m.newDict .query true).WF := wf.newDict ..
  have o2 : OpenQ (m.newDict .query true) m.dicts.length :=
    ⟨by simp [Mem.newDict], by simp [Mem.newDict, Mem.obj], by simp [Mem.newDict, Mem.obj]⟩
  have h2 : HoldsForm (m.newDict .query true) m.dicts.length [] := by
    have hd : (m.newDict .query true).dict m.dicts.length = [] := by simp [Mem.newDict, Mem.dict, Mem.obj]
    exact ⟨by rw [hd]; rfl, fun k => by unfold Mem.abs; rw [hd]; rfl⟩
  obtain ⟨m', e, wf', o', h'⟩ := formAppends_works C S l hl wf2 o2 h2
  refine ⟨m.dicts.length, m'.setMutable m.dicts.length false, ?_, ?_, ?_⟩
  · simp only [formDict, hq, e]
  · exact h'.congr (setMutable_dict ..) (setMutable_abs ..)
  · have : (m'.setMutable m.dicts.length false).obj m.dicts.length = { m'.obj m.dicts.length with mutable := false } := by
      have := o'.lt
      simp [Mem.setMutable, Mem.obj, this]
    rw [this]
    exact ⟨o'.cls, rfl⟩

section
variable {ρ σ F : Type} [Producer ρ] {L : Lawful ρ} {H : HandlerOps ρ σ F}

theorem PartRun.fields {C : Codecs} {S : Settings} {fuel64 : Nat} {t md content} {st st' : PState σ F} {b : Bool} {r}
    (h : PartRun C S H fuel64 t md content st b r st') :
    st'.post = st.post ∨ ∃ name item, postAppend C S st.post name item = .ok st'.post := by
  have key : ∀ {st1}, (∃ r1, completeOld H st = (r1, st1)) → st1.post = st.post := by
    rintro st1 ⟨r1, h1⟩
    exact (completeOld_num h1).2.2
  cases h with
  | completeErr h1 => exact .inl (key ⟨_, h1⟩)
  | nameErr h1 => exact .inl (key ⟨_, h1⟩)
  | @tooMany st1 _ _ _  h1 => exact .inl (key (st1 := st1) ⟨_, h1⟩)
  | @negative st1 _ _ _  h1 => exact .inl (key (st1 := st1) ⟨_, h1⟩)
  | fileNameErr h1 => exact .inl (key ⟨_, h1⟩)
  | @fileErr st1 _ _ _ _ _ _ _ h1 => exact .inl (key (st1 := st1) ⟨_, h1⟩)
  | skip h1 => exact .inl (key ⟨_, h1⟩)
  | noFileName h1 => exact .inl (key ⟨_, h1⟩)
  | @file st1 _ _ _ _ _ _ h1 => exact .inl (key (st1 := st1) ⟨_, h1⟩)
  | @fileSkip st1 _ _ _ _ _ _ _ _ h1 => exact .inl (key (st1 := st1) ⟨_, h1⟩)
  | @field st1 _ _ name raw r st2 h1 _ _ _ hk _ _ hst =>
    have e := key ⟨_, h1⟩
    rcases r with x | x
    · left
      rw [← e]
      unfold storeField at hst
      simp only at hst
      split at hst
      · simp only [Prod.mk.injEq] at hst; rw [← hst.2]
      · split at hst
        · simp only [Prod.mk.injEq] at hst; rw [← hst.2]
        · split at hst
          · simp only [Prod.mk.injEq] at hst; rw [← hst.2]
          · simp at hst
    · obtain ⟨ky, item, post, _, _, _, _, _, _, _, _, _, hp, rfl⟩ := storeField_state hst
      exact .inr ⟨name, item, by rw [← e]; exact hp⟩

theorem Parses.fields {C : Codecs} {S : Settings} {fuel64 : Nat} {sep D D' : Bytes} {st st' : PState σ F} {r}
    (h : Parses C S H fuel64 sep D st r D' st') : ∃ l, putFields C S l st.post = .ok st'.post := by
  have one : ∀ {t md content b r} {st st' : PState σ F}, PartRun C S H fuel64 t md content st b r st' →
      ∃ l, putFields C S l st.post = .ok st'.post := by
    intro t md content b r st st' h
    rcases h.fields with h | ⟨name, item, h⟩
    · exact ⟨[], by rw [h]; rfl⟩
    · exact ⟨[(name, item)], by simp [putFields, h]⟩
  induction h with
  | done => exact ⟨[], rfl⟩
  | headErr => exact ⟨[], rfl⟩
  | partErr _ _ hrun _ => exact one hrun
  | part _ _ hrun _ _ _ _ ih =>
    obtain ⟨l, h1⟩ := one hrun
    obtain ⟨l', h2⟩ := ih
    exact ⟨l ++ l', by rw [putFields_append l l' h1, h2]⟩

/-- **C84**, `POST` of a multipart form: the dictionary that parsing returns is the object that `appendlist` makes of
some fields in a new mutable `QueryDict` which is then made immutable.  It has the keys and lists that were returned, and
no sequence of mutating methods changes anything. -/
theorem C84_form (C : Codecs) (S : Settings) (H : HandlerOps ρ σ F) (fuel64 : Nat) (m : MultiPart) (hc : 1 ≤ m.chunkSize)
    (hl : LeavesParsing L H) (input : LazyStream ρ) (w : σ) (hi : SOK L input) {post files s' w'}
    (h : m.parse C S H fuel64 input w = (.ok (post, files), s', w')) {mem : Mem Bytes PostItem} (wf : mem.WF) :
    ∃ fields i mem', formDict C S fields mem = (.ok i, mem') ∧ HoldsForm mem' i post ∧
      ∀ K (fs : List (Mutator Bytes PostItem)), (mutateAll K i fs mem').2 = mem' := by
  have fin : ∀ l, emptyQueryDict C S = .ok () → putFields C S l [] = .ok post →
      ∃ fields i mem', formDict C S fields mem = (.ok i, mem') ∧ HoldsForm mem' i post ∧
      ∀ K (fs : List (Mutator Bytes PostItem)), (mutateAll K i fs mem').2 = mem' := by
    intro l hq hl
    obtain ⟨i, mem', h1, h2, h3, h4⟩ := formDict_works C S hq l hl wf
    exact ⟨l, i, mem', h1, h2, fun K fs => (C05_immutable K mem' i h3 h4 fs).1⟩
  rcases parse_elim C S H fuel64 m hc hl input w hi with
    ⟨e, _, _, h1, _⟩ | ⟨h0, hq, h1⟩ | ⟨h0, hq, input1, w1, r, D', st', s2, R, w2, _, h2, _, h3, h4, h5, _⟩
  · rw [h] at h1; simp at h1
  · rw [h] at h1
    simp only [Prod.mk.injEq, Except.ok.injEq] at h1
    exact fin [] hq (by rw [h1.1.1]; rfl)
  · rw [h] at h3
    simp only [Prod.mk.injEq] at h3
    obtain ⟨l, hl⟩ := h4.fields
    have hp : post = st'.post := by
      rw [← h3.1] at h5
      unfold endParse at h5
      split at h5
      · split at h5
        · simp at h5
        · simp only [Prod.mk.injEq, Except.ok.injEq] at h5; exact h5.1.1.symm
      · split at h5
        · simp at h5
        · split at h5
          · simp at h5
          · simp only [Prod.mk.injEq, Except.ok.injEq] at h5; exact h5.1.1.symm
      · simp at h5
    exact fin l hq (by rw [hp]; exact hl)

end

/-! ## C132: no field gets lost -/

/-- The part `P` is a form field: `x` is the converted name and the item. -/
def Spec.IsField (C : Codecs) (S : Settings) (P : Bytes) (x : Bytes × PostItem) : Prop :=
  ∃ md content d n name data, PartHead C P .field md content ∧ partName md = some (d, n) ∧ forceText n.strip = .ok name ∧
    C.strEncode S.defaultCharset name = .ok x.1 ∧ FieldData (transferEnc md) content data ∧ x.2 = fieldItem md data

/-- The form fields of a body, in order. -/
inductive Spec.FieldsOf (C : Codecs) (S : Settings) (sep : Bytes) : Bytes → List (Bytes × PostItem) → Prop where
  | done : FieldsOf C S sep [] []
  | field {D x l} : D ≠ [] → IsField C S (cut sep D) x → FieldsOf C S sep (after sep D) l → FieldsOf C S sep D (x :: l)
  | other {D l} : D ≠ [] → (∀ x, ¬ IsField C S (cut sep D) x) → FieldsOf C S sep (after sep D) l → FieldsOf C S sep D l

theorem FieldData.unique {te : Option Bytes} {c d d' : Bytes} (h : FieldData te c d) (h' : FieldData te c d') : d = d' := by
  unfold FieldData at h h'
  split at h
  · rename_i hb
    rw [if_pos hb] at h'
    have := h.decode.symm.trans h'.decode
    simpa using this
  · rename_i hb
    rw [if_neg hb] at h'
    rw [h, h']

theorem IsField.unique {C : Codecs} {S : Settings} {P : Bytes} {x y : Bytes × PostItem} (h : IsField C S P x)
    (h' : IsField C S P y) : x = y := by
  obtain ⟨md, content, d, n, name, data, a1, a2, a3, a4, a5, a6⟩ := h
  obtain ⟨md', content', d', n', name', data', b1, b2, b3, b4, b5, b6⟩ := h'
  obtain ⟨-, rfl, rfl⟩ := a1.unique b1
  rw [a2] at b2; cases b2
  rw [a3] at b3; cases b3
  rw [a4] at b4
  have := FieldData.unique a5 b5
  subst this
  obtain ⟨k, i⟩ := x
  obtain ⟨k', i'⟩ := y
  simp only [Except.ok.injEq] at b4 a6 b6
  simp [b4, a6, b6]

theorem FieldsOf.unique {C : Codecs} {S : Settings} {sep D : Bytes} {l l' : List (Bytes × PostItem)}
    (h : FieldsOf C S sep D l) (h' : FieldsOf C S sep D l') : l = l' := by
  induction h generalizing l' with
  | done => cases h' <;> first | rfl | contradiction
  | field h1 h2 h3 ih =>
    cases h' with
    | done => contradiction
    | field _ b2 b3 => rw [IsField.unique h2 b2, ih b3]
    | other _ b2 _ => exact absurd h2 (b2 _)
  | other h1 h2 h3 ih =>
    cases h' with
    | done => contradiction
    | field _ b2 b3 => exact absurd b2 (h2 _)
    | other _ _ b3 => exact ih b3

/-- Reading a body that means something: `POST` gets exactly the fields of the body, in order. -/
theorem Reads.fields {C : Codecs} {S : Settings} (hC : C.Settles S) {sep D : Bytes} {g g' : Ghost}
    {res : Except Exc Ghost} (h : Reads C S sep D g res) (hr : res = .ok g') :
    ∃ l, FieldsOf C S sep D l ∧ g'.post = l.foldl (fun d x => MVD.append d x.1 x.2) g.post := by
  induction h with
  | done => cases hr; exact ⟨[], .done, rfl⟩
  | @rest D g h0 h1 h2 =>
    cases hr
    refine ⟨[], .other h0 ?_ ?_, rfl⟩
    · rintro x ⟨md, content, d, n, name, data, a1, -⟩
      rw [(cut_last h1).1] at a1
      cases a1 with
      | header hf _ _ =>
        apply h2
        by_contra hn
        have := Py.find_none_iff_not_infix.2 fun h => hn (h.trans (List.take_prefix 1024 D).isInfix)
        rw [hf] at this; cases this
    · rw [(cut_last h1).2]; exact .done
  | bad => cases hr
  | partErr => cases hr
  | @part D g g1 t md content res h1 h2 h3 h4 ih =>
    obtain ⟨l, i1, i2⟩ := ih hr
    have other : (∀ x, ¬ IsField C S (cut sep D) x) → g1.post = g.post →
        ∃ l, FieldsOf C S sep D l ∧ g'.post = l.foldl (fun d x => MVD.append d x.1 x.2) g.post :=
      fun a b => ⟨l, .other h1 a i1, by rw [i2, b]⟩
    cases h3 with
    | unnamed h _ =>
      refine other ?_ rfl
      rintro x ⟨md', content', d, n, name, data, a1, a2, -⟩
      obtain ⟨-, rfl, rfl⟩ := h2.unique a1
      rw [h] at a2; cases a2
    | @field d n name data key a1 a2 a3 a4 a5 a6 a7 a8 =>
      subst a3
      exact ⟨(key, fieldItem md data) :: l, .field h1 ⟨md, content, d, n, name, data, h2, a1, a2, a7, a6, rfl⟩ i1, i2⟩
    | @lost d n name data key key' a1 a2 a3 a4 a5 a6 a7 a8 a9 a10 =>
      have := hC _ _ a7
      rw [this] at a9
      cases a9
      exact absurd rfl a10
    | noFile _ _ a3 _ _ =>
      refine other ?_ rfl
      rintro x ⟨md', content', d, n, name, data, a1, a2, -⟩
      have := (h2.unique a1).1
      rw [a3] at this; cases this
    | file _ _ a3 =>
      refine other ?_ rfl
      rintro x ⟨md', content', d, n, name, data, a1, a2, -⟩
      have := (h2.unique a1).1
      rw [a3] at this; cases this

/-- **C132, the part that holds**: if the charset leaves a name that is encoded already as it is (`Codecs.Settles`; all
charsets that extend ASCII do), then for every body that means something (`Spec.Reads`), `POST` has exactly the fields of
the body, in order, under their names.  Missing: other charsets, which the client may name too (`C132_lost_refuted`). -/
theorem C132_kept_partial {ρ : Type} [Producer ρ] {L : Lawful ρ} (C : Codecs) (hC : ∀ b, C.Avoids (.stopUpload b))
    (S : Settings) (hset : C.Settles S) (hS : ∀ k, S.dataMaxMemory = some k → 0 ≤ k) (hq : emptyQueryDict C S = .ok ())
    (os : Os) (hos : ∀ e, os.tempFile e = .ok ()) (fuel64 : Nat) (m : MultiPart) (hc : 1 ≤ m.chunkSize)
    (hl : m.contentLength ≠ 0) (hs : List Builtin) (heap : Heap) (ht : Takes S m.contentLength hs)
    (input : LazyStream ρ) (hi : SOK L input) (hf : (L.sc input).length ≤ fuel64)
    (g : Ghost) (hb : Reads C S (b!"--" ++ m.boundary) (L.sc input) ⟨[], [], none, 0, 0⟩ (.ok g))
    (l : List (Bytes × PostItem)) (h : FieldsOf C S (b!"--" ++ m.boundary) (L.sc input) l) :
    ∃ files s w, m.parse C S (builtinOps ρ os hs.length) fuel64 input ⟨hs, heap⟩ =
      (.ok (l.foldl (fun d x => MVD.append d x.1 x.2) [], files), s, w) := by
  have h85 := C85_meaning C hC S hS hq os hos fuel64 m hc hl hs heap ht input hi hf _ hb
  obtain ⟨l', h1, h2⟩ := Reads.fields hset hb rfl
  have := FieldsOf.unique h h1
  subst this
  rcases hp : m.parse C S (builtinOps ρ os hs.length) fuel64 input ⟨hs, heap⟩ with ⟨r, s, w⟩
  rw [hp] at h85
  cases r with
  | error e => cases h85
  | ok x =>
    obtain ⟨post, files⟩ := x
    have : post = g.post := by
      simp only [viewOf, Except.map, Ghost.view, Except.ok.injEq, Prod.mk.injEq] at h85
      exact h85.1
    rw [this, h2]
    exact ⟨files, s, w, rfl⟩

/-- One letter in the codec `rot13` of Python 2. -/
def rot13 (c : UInt8) : UInt8 :=
  if 97 ≤ c ∧ c ≤ 122 then (c - 97 + 13) % 26 + 97
  else if 65 ≤ c ∧ c ≤ 90 then (c - 65 + 13) % 26 + 65
  else c

/-- Latin-1 and `rot13`. -/
def rotCodecs : Codecs :=
  { latinCodecs with
    strEncode := fun enc b =>
      if Py.isAscii b then .ok (if enc = b!"rot13" then b.map rot13 else b) else .error .unicodeDecodeError }

/-- C132 without a condition on the charset. -/
def C132_statement : Prop :=
  ∀ (C : Codecs) (S : Settings) (m : MultiPart) (hs : List Builtin) (heap : Heap) (cs : List Bytes)
    (l : List (Bytes × PostItem)) (post : MVD PostItem) (files : MVD Uploaded) (s : LazyStream Source) (w : BWorld),
    1 ≤ m.chunkSize → m.contentLength ≠ 0 → FieldsOf C S (b!"--" ++ m.boundary) cs.flatten l →
    m.parse C S (builtinOps Source goodOs hs.length) 1000 (LazyStream.mk' ⟨cs⟩) ⟨hs, heap⟩ = (.ok (post, files), s, w) →
    (items post).length = l.length

/-- The body of a form with a field `a`. -/
def lostBody : Bytes := renderForm b!"B" [.field b!"a" b!"x"]

theorem not_isField {C : Codecs} {S : Settings} {P : Bytes} (h : Py.find b!"\r\n\r\n" (P.take 1024) = none)
    (x : Bytes × PostItem) : ¬ IsField C S P x := by
  rintro ⟨md, content, d, n, name, data, a1, -⟩
  cases a1 with
  | header hf _ _ => rw [h] at hf; cases hf

private theorem lost_c : cut (b!"--" ++ b!"B") lostBody = [] ∧ after (b!"--" ++ b!"B") lostBody = lostBody.drop 3 ∧
    cut (b!"--" ++ b!"B") (lostBody.drop 3) = b!"\r\nContent-Disposition: form-data; name=\"a\"\r\n\r\nx" ∧
    after (b!"--" ++ b!"B") (lostBody.drop 3) = b!"--\r\n" ∧ cut (b!"--" ++ b!"B") b!"--\r\n" = b!"--\r\n" ∧
    after (b!"--" ++ b!"B") b!"--\r\n" = [] := by decide +kernel

/-- The item of the field. -/
private def lostItem : PostItem := ⟨b!"x", [], [], []⟩

theorem lostBody_fields {C : Codecs} {S : Settings} {key : Bytes} (hk : C.strEncode S.defaultCharset b!"a" = .ok key)
    {md : MetaData} (hd : partHeaders C (Py.splitPair 13 10 b!"\r\nContent-Disposition: form-data; name=\"a\"") .raw [] =
      .ok (.field, md)) {d} (hn : partName md = some (d, .b b!"a")) (ht : transferEnc md = none)
    (hi : fieldItem md b!"x" = lostItem) :
    FieldsOf C S (b!"--" ++ b!"B") lostBody [(key, lostItem)] := by
  obtain ⟨c1, c2, c3, c4, c5, c6⟩ := lost_c
  refine .other (by decide +kernel) (by rw [c1]; exact not_isField (by decide +kernel)) ?_
  rw [c2]
  refine .field (by decide +kernel) ?_ ?_
  · rw [c3]
    exact ⟨md, b!"x", d, _, b!"a", b!"x", .header (i := 42) (by decide +kernel) hd (by decide), hn, rfl, hk, by
      unfold FieldData; rw [ht]; rfl, hi.symm⟩
  · rw [c4]
    refine .other (by decide) (by rw [c5]; exact not_isField (by decide +kernel)) ?_
    rw [c6]; exact .done

theorem lostBody_reads : Reads latinCodecs {} (b!"--" ++ b!"B") lostBody ⟨[], [], none, 0, 0⟩
    (.ok ⟨[(b!"a", [lostItem])], [], none, 4, 1⟩) := by
  obtain ⟨c1, c2, c3, c4, c5, c6⟩ := lost_c
  refine .part (t := .raw) (md := []) (content := []) (by decide +kernel) (by
    rw [c1]; exact .noHeader (by decide +kernel)) (.unnamed rfl (by decide +kernel)) ?_
  rw [c2]
  refine .part (by decide +kernel) (by rw [c3]; exact .header (i := 42) (by decide +kernel) rfl (by decide))
    (.field (name := b!"a") (data := b!"x") (key := b!"a") rfl rfl rfl (by intro k hk; cases hk; decide)
      (by intro k hk; cases hk; decide) (by unfold FieldData; rw [if_neg (by decide +kernel)]; rfl) (by rfl)
      (.inr (by rfl))) ?_
  rw [c4]
  exact .rest (by decide) (by decide +kernel) (by decide +kernel)

/-- The hypotheses of C132 can be met for every chunk size and cutting of the body. -/
example (k : Nat) (hk : 1 ≤ k) (cs : List Bytes) (h : cs.flatten = lostBody) : ∃ files s w,
    (⟨b!"B", k, 100⟩ : MultiPart).parse latinCodecs {} (builtinOps Source goodOs 1) 1000 (LazyStream.mk' ⟨cs⟩)
      ⟨[.conv {}], []⟩ = (.ok ([(b!"a", [lostItem])], files), s, w) := by
  have hg := lostBody_reads
  exact C132_kept_partial (L := Source.lawful) latinCodecs (fun b => latin_avoids (by simp) (by simp)) {}
    (latin_settles _) (fun k h => by cases h; decide) rfl goodOs (fun _ => rfl) 1000 ⟨b!"B", k, 100⟩ hk (by simp)
    [.conv {}] [] ⟨⟨.conv {}, by simp, trivial⟩, by intro h hh _; decide⟩
    (LazyStream.mk' ⟨cs⟩) (SOK.fresh cs) (by rw [sc_fresh, h]; decide +kernel) _ (by rw [sc_fresh, h]; exact hg)
    [(b!"a", lostItem)] (by
      rw [sc_fresh, h]; exact lostBody_fields (by rfl) (by rfl) (by rfl) (by rfl) (by rfl))

/-- Those of C84 too; this is the object. -/
example : (formDict latinCodecs {} [(b!"a", lostItem), (b!"b", lostItem), (b!"a", lostItem)] {}).1.toOption = some 0 ∧
    HoldsForm (formDict latinCodecs {} [(b!"a", lostItem), (b!"b", lostItem), (b!"a", lostItem)] {}).2 0
      [(b!"a", [lostItem, lostItem]), (b!"b", [lostItem])] := by
  have wf : ({} : Mem Bytes PostItem).WF := by
    have h : ∀ i, ({} : Mem Bytes PostItem).dict i = [] := by intro i; simp [Mem.dict, Mem.obj]
    refine ⟨fun i => ?_, fun i k r hr => ?_, fun i k i' k' r hr => ?_⟩
    · rw [h]; simp [Dict.keys]
    · rw [h] at hr; cases hr
    · rw [h] at hr; cases hr
  obtain ⟨i, m', h1, h2, -⟩ := formDict_works latinCodecs {} rfl [(b!"a", lostItem), (b!"b", lostItem), (b!"a", lostItem)]
    (post := [(b!"a", [lostItem, lostItem]), (b!"b", [lostItem])]) (by rfl) wf
  have : i = 0 := by
    have : (formDict latinCodecs {} [(b!"a", lostItem), (b!"b", lostItem), (b!"a", lostItem)] {}).1 = .ok 0 := by rfl
    rw [h1] at this; cases this; rfl
  subst this
  rw [h1]
  exact ⟨rfl, h2⟩

example (k : Nat) (hk : 1 ≤ k) (cs : List Bytes) {post files s w} {mem : Mem Bytes PostItem} (wf : mem.WF)
    (h : (⟨b!"B", k, 100⟩ : MultiPart).parse latinCodecs {} (builtinOps Source goodOs 1) 1000 (LazyStream.mk' ⟨cs⟩)
      ⟨[.conv {}], []⟩ = (.ok (post, files), s, w)) :=
  C84_form (L := Source.lawful) latinCodecs {} (builtinOps Source goodOs 1) 1000 ⟨b!"B", k, 100⟩ hk (builtin_leaves _ _ _)
    (LazyStream.mk' ⟨cs⟩) _ (SOK.fresh cs) h wf

/-- C132 is false: with `charset=rot13`, which the client names in the header `Content-Type`, the field `a` of a form is
counted but its value is lost.  `appendlist` makes the key `n` of the name, and as it is new, `setlist` makes the key `a` of
that and stores an empty list. -/
theorem C132_lost_refuted : ¬ C132_statement := by
  intro h
  have := h rotCodecs { defaultCharset := b!"rot13" } ⟨b!"B", 64, 100⟩ [] [] [lostBody] [(b!"n", lostItem)] _ _ _ _
    (by decide) (by decide) (lostBody_fields (by rfl) (by rfl) (by rfl) (by rfl) (by rfl)) (by rfl)
  revert this
  decide +kernel

/-- What is in `POST` then; a second field `n` gets into the list of `a`. -/
example : let post := fun fields => ((⟨b!"B", 64, 100⟩ : MultiPart).parse rotCodecs { defaultCharset := b!"rot13" }
      (builtinOps Source goodOs 0) 1000 (LazyStream.mk' ⟨[renderForm b!"B" fields]⟩) ⟨[], []⟩).1.toOption.map Prod.fst
    post [.field b!"a" b!"x"] = some [(b!"a", [])] ∧
    post [.field b!"a" b!"x", .field b!"n" b!"y"] = some [(b!"a", [⟨b!"y", [], [], []⟩])] := by decide +kernel

/-- The same from the text of a request. -/
example : let r := parseRequest { bareEnv with C := rotCodecs } {} (reqOf [b!"POST http://h/ HTTP/1.1\r\nContent-Type: ",
      b!"multipart/form-data; boundary=B; charset=rot13\r\nContent-Length: 59\r\n\r\n" ++ lostBody]) ()
    r.1.toOption = some () ∧ r.2.2.1.post = some (.form [(b!"a", [])]) := by
  decide +kernel

end Verif
