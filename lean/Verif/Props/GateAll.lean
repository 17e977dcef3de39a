import Verif.Props.Gate
import Mathlib.Data.List.Forall2
/-!
# Handlers that refuse files, before any of the built-in handlers (C100, C101)
-/

namespace Verif
open Spec

/-! ## The files that have been stored, some of them closed -/

/-- The files `done` lie in the heap, each in a place of its own; they are as they were stored or closed. -/
def Kept (heap : Heap) (done : List (Bytes × Uploaded × Bytes)) : Prop :=
  (∀ p ∈ done, p.2.1.size = p.2.2.length ∧ p.2.1.name = setName p.1 ∧
    ∃ o, heap[p.2.1.ref]? = some o ∧ (o = ⟨p.2.2, 0, false⟩ ∨ o.closed = true)) ∧ (done.map fun p => p.2.1.ref).Nodup

theorem Kept.lt {heap : Heap} {done : List (Bytes × Uploaded × Bytes)} (h : Kept heap done) {p} (hp : p ∈ done) :
    p.2.1.ref < heap.length := by
  obtain ⟨-, -, o, ho, -⟩ := h.1 p hp
  exact (List.getElem?_eq_some_iff.1 ho).1

theorem Kept.others {heap heap' : Heap} {r : Nat} {done : List (Bytes × Uploaded × Bytes)}
    (h : Kept heap done) (ho : Others heap heap' r) (hr : ∀ p ∈ done, p.2.1.ref ≠ r) : Kept heap' done := by
  refine ⟨fun p hp => ?_, h.2⟩
  obtain ⟨h1, h2, o, h3, h4⟩ := h.1 p hp
  refine ⟨h1, h2, o, ?_, h4⟩
  rw [ho _ (h.lt hp) (hr p hp)]
  exact h3

/-- Some files are closed, nothing else happens. -/
def Closing (heap heap' : Heap) : Prop :=
  ∀ (i : Nat) (o : FileObj), heap[i]? = some o → ∃ o' : FileObj, heap'[i]? = some o' ∧ (o' = o ∨ o'.closed = true)

theorem Closing.refl (heap : Heap) : Closing heap heap := fun _ o h => ⟨o, h, .inl rfl⟩

theorem Closing.trans {a b c : Heap} (h : Closing a b) (h' : Closing b c) : Closing a c := by
  intro i o ho
  obtain ⟨o1, h1, h2⟩ := h i o ho
  obtain ⟨o2, h3, h4⟩ := h' i o1 h1
  refine ⟨o2, h3, ?_⟩
  rcases h4 with rfl | h4
  · exact h2
  · exact .inr h4

theorem Kept.closing {heap heap' : Heap} {done : List (Bytes × Uploaded × Bytes)} (h : Kept heap done)
    (hc : Closing heap heap') : Kept heap' done := by
  refine ⟨fun p hp => ?_, h.2⟩
  obtain ⟨h1, h2, o, h3, h4⟩ := h.1 p hp
  obtain ⟨o', h5, h6⟩ := hc _ o h3
  refine ⟨h1, h2, o', h5, ?_⟩
  rcases h6 with rfl | h6
  · exact h4
  · exact .inr h6

/-- The attribute `file` of the handler is the file at `r`; nothing is said of a `ConvenientFileUploadHandler`. -/
def Builtin.At (r : Nat) : Builtin → Prop
  | .memory h => h.file = some r
  | .temp h => ∃ f, h.file = some f ∧ f.ref = r
  | .conv _ => True

def KReady (N : Nat) (w : BWorld) (done : List (Bytes × Uploaded × Bytes)) : Prop :=
  (∃ mid b post, Handlers N w.hs mid b post ∧ ∀ p, done.getLast? = some p → b.At p.2.1.ref) ∧ Kept w.heap done

def KBusy (N : Nat) (w : BWorld) (cs : List Nat) (done : List (Bytes × Uploaded × Bytes)) (n d : Bytes) : Prop :=
  Kept w.heap done ∧ ∃ mid b post r, Handlers N w.hs mid b post ∧ b.Open n r ∧
    w.heap[r]? = some ⟨d, d.length, false⟩ ∧ (∀ p ∈ done, p.2.1.ref ≠ r) ∧ cs.length = N ∧
    cs.getD mid.length 0 = d.length

theorem Builtin.complete_at {size : Nat} {b b' : Builtin} {heap heap' : Heap} {n : Bytes} {r : Nat} {f : Uploaded}
    (hb : b.Accepts) (ho : b.Open n r) (h : b.fileComplete size heap = (.ok (some f), b', heap')) (hr : f.ref = r) :
    b'.At r := by
  cases b with
  | memory m =>
    obtain ⟨args, act, file⟩ := m
    obtain ⟨ho1, a, ho2, ho3⟩ := ho
    simp only at ho1 ho2
    subst ho1 ho2
    simp only [Builtin.fileComplete, Prod.mk.injEq] at h
    obtain ⟨h1, rfl, -⟩ := h
    cases act with
    | none => exact absurd rfl hb.1
    | some v =>
      cases v with
      | false => exact absurd rfl hb.2
      | true =>
        simp only [Builtin.At]
  | temp t =>
    obtain ⟨args, hasS, file⟩ := t
    obtain ⟨g, ho1, ho2, ho3⟩ := ho
    simp only at ho1
    subst ho1 ho2
    simp only [Builtin.fileComplete, Prod.mk.injEq] at h
    obtain ⟨h1, rfl, -⟩ := h
    unfold TempH.fileComplete at h1 ⊢
    simp only [Builtin.At]
    revert h1
    repeat' split
    all_goals simp
  | conv c =>
    simp only [Builtin.fileComplete, Prod.mk.injEq] at h
    obtain ⟨-, rfl, -⟩ := h
    trivial

section
variable {ρ : Type} {os : Os} (hos : ∀ e, os.tempFile e = .ok ())

include hos in
/-- The built-in handlers store files also when some of those stored before have been closed. -/
theorem builtin_keeps (N : Nat) : Stores (builtinOps ρ os N) (KReady N) (KBusy N) where
  opens := by
    rintro ⟨hs, heap⟩ done a - ⟨⟨mid, b, post, hH, -⟩, hst⟩
    obtain ⟨mid', b', post', extra, h1, h2, h3, h4, h5, h6, h7⟩ :=
      newFiles_accept (ρ := ρ) hos a N b post heap hH.accepts hH.init mid [] hH.inactive
    have hN : N = mid.length + 1 + post.length := by
      rw [← hH.count]; have := hH.split; simp only at this ⊢; rw [this]; simp; omega
    have hs' := hH.split
    simp only at hs'
    subst hs'
    refine ⟨⟨mid' ++ b' :: post', heap ++ ({} : FileObj) :: extra⟩, ?_, ?_, mid', b', post', heap.length,
      ⟨rfl, ?_, h4, h5, h6⟩, h7, ?_, ?_, ?_, ?_⟩
    · rw [List.range_eq_range']
      change newFiles _ a (List.range' 0 N) _ = _
      rw [hN] at h1 ⊢
      simpa using h1
    · refine ⟨fun p hp => ?_, hst.2⟩
      obtain ⟨a1, a2, o, a3, a4⟩ := hst.1 p hp
      refine ⟨a1, a2, o, ?_, a4⟩
      rw [List.getElem?_append_left (hst.lt hp)]
      exact a3
    · simp; omega
    · simp
    · intro p hp
      have := hst.lt hp
      simp only at this
      omega
    · simp [builtinOps]
    · change (List.replicate N 0).getD mid'.length 0 = 0
      rw [List.getD, List.getElem?_replicate]
      split <;> rfl
  feeds := by
    rintro ⟨hs, heap⟩ cs done n d c ⟨hst, mid, b, post, r, hH, ho, hcell, hne, hlen, hcs⟩
    obtain ⟨b', heap', r', h1, h2, h3, h4, h5, h6⟩ := Builtin.receive_open hos c b heap n r d hH.accepts ho hcell
    have hN : N = mid.length + 1 + post.length := by
      rw [← hH.count]; have := hH.split; simp only at this ⊢; rw [this]; simp; omega
    have hs' := hH.split
    simp only at hs'
    subst hs'
    obtain ⟨cs', i1, i2, i3⟩ := feedChunk_accept (ρ := ρ) hos N b b' post heap heap' c h1 mid [] cs
      (fun x hx => (hH.inactive x hx).2) (by simp; omega)
    refine ⟨cs', ⟨mid ++ b' :: post, heap'⟩, ?_, hst.others h5 hne, mid, b', post, r', ⟨rfl, ?_, hH.inactive, h2, hH.init⟩,
      h3, h4, ?_, by omega, ?_⟩
    · rw [List.range_eq_range']
      change feedChunk _ (List.range' 0 N) _ _ _ = _
      rw [hN] at i1 ⊢
      simpa using i1
    · simp; omega
    · intro p hp
      rcases h6 with rfl | h6
      · exact hne p hp
      · have := hst.lt hp
        simp only at this
        omega
    · simp only [List.length_nil, Nat.zero_add] at i3
      rw [i3, hcs, List.length_append]
  completes := by
    rintro ⟨hs, heap⟩ cs done n d ⟨hst, mid, b, post, r, hH, ho, hcell, hne, hlen, hcs⟩ hd
    obtain ⟨b', f, h1, h2, h3, h4, h5⟩ := Builtin.complete_open (cs.getD mid.length 0) b heap n r d hH.accepts ho hcell
    have hat := Builtin.complete_at hH.accepts ho h1 h3
    have hr : r < heap.length := (List.getElem?_eq_some_iff.1 hcell).1
    have hN : N = mid.length + 1 + post.length := by
      rw [← hH.count]; have := hH.split; simp only at this ⊢; rw [this]; simp; omega
    have hs' := hH.split
    simp only at hs'
    subst hs'
    have i1 := completeLoop_accept (ρ := ρ) hos N b b' post heap _ f cs mid [] (fun x hx => (hH.inactive x hx).2)
      (by simpa using h1) (by rw [h5, hcs]; simpa using hd)
    refine ⟨f, ⟨mid ++ b' :: post, heap.set r ⟨d, 0, false⟩⟩, ?_, ⟨mid, b', post, ⟨rfl, ?_, hH.inactive, h2, hH.init⟩, ?_⟩, ?_⟩
    · rw [List.range_eq_range']
      change completeLoop _ _ (List.range' 0 N) _ = _
      rw [hN] at i1 ⊢
      simpa using i1
    · simp; omega
    · intro p hp
      simp only [List.getLast?_append, List.getLast?_singleton, Option.some_or, Option.some.injEq] at hp
      subst hp
      rw [h3]
      exact hat
    · refine ⟨fun p hp => ?_, ?_⟩
      rotate_left
      · rw [List.map_append, List.nodup_append]
        refine ⟨hst.2, by simp, ?_⟩
        rintro a ha b hb rfl
        obtain ⟨p, hp, rfl⟩ := List.mem_map.1 ha
        simp only [List.map_cons, List.map_nil, List.mem_singleton] at hb
        exact hne p hp (hb.trans h3)
      rcases List.mem_append.1 hp with hp | hp
      · exact (hst.others (heap' := heap.set r ⟨d, 0, false⟩) (r := r)
          (fun i _ hi => by rw [List.getElem?_set_ne (Ne.symm hi)]) hne).1 p hp
      · simp only [List.mem_singleton] at hp
        subst hp
        exact ⟨by rw [h5, hcs], h4, _, by simp [h3, hr], .inl rfl⟩
  finishes := fun w done h => ⟨w, uploadCompleteLoop_builtin N _ w, h⟩

end

theorem Builtin.close_closing (b : Builtin) (heap : Heap) : Closing heap (b.close heap) := by
  have at_ : ∀ (r : Nat) (o : FileObj), heap[r]? = some o → Closing heap (heap.set r { o with closed := true }) := by
    intro r o hr
    · intro i x hx
      by_cases hi : r = i
      · subst hi
        exact ⟨{ o with closed := true }, by simp [(List.getElem?_eq_some_iff.1 hr).1], .inr rfl⟩
      · exact ⟨x, by simp only [List.getElem?_set_ne hi]; exact hx, .inl rfl⟩
  cases b with
  | memory h =>
    cases hf : h.file with
    | none => simpa [Builtin.close, hf] using Closing.refl heap
    | some r =>
      cases hr : heap[r]? with
      | none => simpa [Builtin.close, hf, hr] using Closing.refl heap
      | some o => simpa [Builtin.close, hf, hr] using at_ r o hr
  | temp h =>
    cases hf : h.file with
    | none => simpa [Builtin.close, hf] using Closing.refl heap
    | some f =>
      cases hr : heap[f.ref]? with
      | none => simpa [Builtin.close, hf, hr] using Closing.refl heap
      | some o => simpa [Builtin.close, hf, hr] using at_ f.ref o hr
  | conv h => exact Closing.refl heap

/-- Closing closes files and does nothing else, and the file of each of the handlers is closed afterwards. -/
theorem closeFiles_builtin (ρ : Type) (os : Os) (N : Nat) : ∀ (is : List Nat) (w : BWorld), (∀ i ∈ is, i < w.hs.length) →
    ∃ heap', closeFiles (builtinOps ρ os N) is w = (.ok (), ⟨w.hs, heap'⟩) ∧ Closing w.heap heap' ∧
      ∀ i ∈ is, ∀ b r, w.hs[i]? = some b → b.At r → (∀ c, b ≠ .conv c) → r < w.heap.length →
        ∃ o, heap'[r]? = some o ∧ o.closed = true
  | [], w, _ => ⟨w.heap, rfl, Closing.refl _, by simp⟩
  | i :: is, w, hi => by
    have hlt := hi i (by simp)
    have hcl : (builtinOps ρ os N).close i w = (.ok (), ⟨w.hs, w.hs[i].close w.heap⟩) := by
      simp only [builtinOps, BWorld.on, List.getElem?_eq_getElem hlt, List.set_getElem_self]
    obtain ⟨heap', h1, h2, h3⟩ := closeFiles_builtin ρ os N is ⟨w.hs, w.hs[i].close w.heap⟩
      (fun j hj => hi j (by simp [hj]))
    have hc := Builtin.close_closing w.hs[i] w.heap
    have hlen : ∀ r, r < w.heap.length → r < (w.hs[i].close w.heap).length := by
      intro r hr
      obtain ⟨o', ho', -⟩ := hc r _ (List.getElem?_eq_getElem hr)
      exact (List.getElem?_eq_some_iff.1 ho').1
    refine ⟨heap', by rw [closeFiles, hcl]; exact h1, hc.trans h2, ?_⟩
    intro j hj b r hb hat hk hr
    rcases List.mem_cons.1 hj with rfl | hj
    · have hbj : w.hs[j] = b := by rw [List.getElem?_eq_getElem hlt] at hb; exact Option.some.inj hb
      have : ∃ o, (w.hs[j].close w.heap)[r]? = some o ∧ o.closed = true := by
        rw [hbj]
        cases b with
        | memory m =>
          simp only [Builtin.At] at hat
          exact ⟨{ w.heap[r] with closed := true }, by simp [Builtin.close, hat, hr], rfl⟩
        | temp t =>
          obtain ⟨f, hf, rfl⟩ := hat
          exact ⟨{ w.heap[f.ref] with closed := true }, by simp [Builtin.close, hf, hr], rfl⟩
        | conv c => exact absurd rfl (hk c)
      obtain ⟨o, ho, hoc⟩ := this
      obtain ⟨o', h4, h5⟩ := h2 r o ho
      refine ⟨o', h4, ?_⟩
      rcases h5 with rfl | h5
      · exact hoc
      · exact h5
    · exact h3 j hj b r hb hat hk (hlen r hr)

/-! ## What is seen -/

/-- The same name and size, and the same content unless it can no longer be read. -/
def Spec.SameFile (a b : Bytes × Nat × Option Bytes) : Prop :=
  a.1 = b.1 ∧ a.2.1 = b.2.1 ∧ (a.2.2 = b.2.2 ∨ a.2.2 = none)

/-- The same fields in the same order, with the same files. -/
def Spec.SameFiles (a b : MVD (Bytes × Nat × Option Bytes)) : Prop :=
  List.Forall₂ (fun p q => p.1 = q.1 ∧ List.Forall₂ SameFile p.2 q.2) a b

/-- The same exception, or the same `POST` and the same files. -/
def Spec.SameButClosed : Except Exc (MVD PostItem × MVD (Bytes × Nat × Option Bytes)) →
    Except Exc (MVD PostItem × MVD (Bytes × Nat × Option Bytes)) → Prop
  | .ok a, .ok b => a.1 = b.1 ∧ SameFiles a.2 b.2
  | .error e, .error e' => e = e'
  | _, _ => False

theorem SameFiles.append {a b : MVD (Bytes × Nat × Option Bytes)} (h : SameFiles a b) (n : Bytes)
    {x y : Bytes × Nat × Option Bytes} (hx : SameFile x y) : SameFiles (MVD.append a n x) (MVD.append b n y) := by
  have hget : ∀ {a b : MVD (Bytes × Nat × Option Bytes)}, SameFiles a b →
      List.Forall₂ SameFile ((Dict.get? a n).getD []) ((Dict.get? b n).getD []) := by
    intro a b h
    induction h with
    | nil => exact .nil
    | @cons p q a b hpq _ ih =>
      obtain ⟨k, v⟩ := p
      obtain ⟨k', v'⟩ := q
      obtain ⟨rfl, hv⟩ := hpq
      simp only [Dict.get?]
      split
      · exact hv
      · exact ih
  have hset : ∀ {a b : MVD (Bytes × Nat × Option Bytes)} {u v : List (Bytes × Nat × Option Bytes)}, SameFiles a b →
      List.Forall₂ SameFile u v → SameFiles (Dict.set a n u) (Dict.set b n v) := by
    intro a b u v h huv
    induction h with
    | nil => exact .cons ⟨rfl, huv⟩ .nil
    | @cons p q a b hpq hab ih =>
      obtain ⟨k, w⟩ := p
      obtain ⟨k', w'⟩ := q
      obtain ⟨rfl, hv⟩ := hpq
      simp only [Dict.set]
      split
      · exact .cons ⟨rfl, huv⟩ hab
      · exact .cons ⟨rfl, hv⟩ ih
  unfold MVD.append
  refine hset h ?_
  exact List.rel_append (hget h) (.cons hx .nil)

theorem Made.kept {heap : Heap} (made : Made Uploaded) (h : Kept heap made.done) :
    SameFiles (made.dict.map (fun q => (q.1, q.2.map (Uploaded.view heap))))
      ((made.map Prod.fst).foldl (fun d p => MVD.append d p.1 (setName p.2.1, p.2.2.length, some p.2.2)) []) := by
  have key : ∀ p ∈ made, SameFile (Uploaded.view heap p.2) (setName p.1.2.1, p.1.2.2.length, some p.1.2.2) := by
    intro p hp
    obtain ⟨a1, a2, o, a3, a4⟩ := h.1 (p.1.2.1, p.2, p.1.2.2) (List.mem_map.2 ⟨p, hp, rfl⟩)
    simp only at a1 a2 a3 a4
    refine ⟨a2, a1, ?_⟩
    rcases a4 with rfl | a4
    · left; simp [Uploaded.view, a3, FileObj.readAll, Except.toOption]
    · right; simp [Uploaded.view, a3, FileObj.readAll, a4, Except.toOption]
  clear h
  unfold Made.dict
  suffices h : ∀ (d : MVD Uploaded) (d' : MVD (Bytes × Nat × Option Bytes)),
      SameFiles (d.map (fun q => (q.1, q.2.map (Uploaded.view heap)))) d' →
      SameFiles (List.map (fun q => (q.1, q.2.map (Uploaded.view heap))) (made.foldl (fun d p => MVD.append d p.1.1 p.2) d))
        ((made.map Prod.fst).foldl (fun d p => MVD.append d p.1 (setName p.2.1, p.2.2.length, some p.2.2)) d') by
    exact h [] [] .nil
  induction made with
  | nil => intro d d' h; exact h
  | cons p made ih =>
    intro d d' h
    rw [List.foldl_cons, List.map_cons, List.foldl_cons]
    refine ih (fun q hq => key q (by simp [hq])) _ _ ?_
    rw [append_map]
    exact SameFiles.append h _ (key p (by simp))

/-- Not a `ConvenientFileUploadHandler`. -/
def Builtin.Direct : Builtin → Prop
  | .conv _ => False
  | _ => True

theorem direct_on {α : Type} {D : Prop} {w : BWorld} (h : D → ∀ b ∈ w.hs, b.Direct) (i : Nat)
    (f : Builtin → Heap → Res (Builtin × Heap) α) (hf : ∀ b heap, b.Direct → (f b heap).2.1.Direct) :
    D → ∀ b ∈ (w.on i f).2.hs, b.Direct := by
  intro hD
  unfold BWorld.on
  cases hb : w.hs[i]? with
  | none => exact h hD
  | some b =>
    have := hf b w.heap (h hD b (List.mem_of_getElem? hb))
    intro x hx
    rcases List.mem_or_eq_of_mem_set hx with hx | rfl
    · exact h hD x hx
    · exact this

theorem direct_keeps (D : Prop) (ρ : Type) (os : Os) (N : Nat) :
    (builtinOps ρ os N).Keeps (fun w => D → ∀ b ∈ w.hs, b.Direct) (fun _ => True) (fun _ => True) where
  newFiles := newFiles_of_newFile fun i a w h _ => direct_on h i _ fun b heap hb => by cases b <;> trivial
  receive i d n w h := direct_on h i _ fun b heap hb => by cases b <;> trivial
  fileComplete i n w h := direct_on h i _ fun b heap hb => by cases b <;> trivial
  complete _ _ _ _ _ _ := trivial
  uploadComplete i w h := h
  close i w h := direct_on h i _ fun b heap hb => hb

/-- The last of the files `fs` is the last one of its field in `files`, and it cannot be read. -/
def Spec.LastLost (fs : List (Bytes × Bytes × Bytes)) (files : MVD (Bytes × Nat × Option Bytes)) : Prop :=
  ∀ p, fs.getLast? = some p →
    ∃ vs, Dict.get? files p.1 = some (vs ++ [(setName p.2.1, p.2.2.length, none)])

theorem Made.lost {heap : Heap} (made : Made Uploaded) (h : Kept heap made.done)
    (hl : ∀ q, made.done.getLast? = some q → ∃ o, heap[q.2.1.ref]? = some o ∧ o.closed = true) :
    LastLost (made.map Prod.fst) (made.dict.map (fun q => (q.1, q.2.map (Uploaded.view heap)))) := by
  rcases List.eq_nil_or_concat made with rfl | ⟨init, q, rfl⟩
  · intro p hp; simp at hp
  intro p hp
  simp only [List.concat_eq_append, List.map_append, List.map_cons, List.map_nil, List.getLast?_append,
    List.getLast?_singleton, Option.some_or, Option.some.injEq] at hp
  subst hp
  simp only [List.concat_eq_append] at h hl ⊢
  obtain ⟨o, ho, hoc⟩ := hl (q.1.2.1, q.2, q.1.2.2) (by simp [Made.done])
  obtain ⟨a1, a2, -⟩ := h.1 (q.1.2.1, q.2, q.1.2.2) (by simp [Made.done])
  simp only at a1 a2 ho
  unfold Made.dict
  rw [List.foldl_append, List.foldl_cons, List.foldl_nil, append_map]
  generalize List.map _ (List.foldl _ _ init) = d
  refine ⟨(Dict.get? d q.1.1).getD [], ?_⟩
  unfold MVD.append
  rw [Dict.get?_set, if_pos rfl]
  simp [Uploaded.view, ho, FileObj.readAll, hoc, Except.toOption, a1, a2]

/-- Behind a handler that refuses files: what the parser returns and which file is lost. -/
theorem gated_builtin {ρ : Type} [Producer ρ] {L : Lawful ρ} (C : Codecs) (hC : ∀ b, C.Avoids (.stopUpload b))
    (S : Settings) (hq : emptyQueryDict C S = .ok ()) (gate : NewFileArgs → Option Exc)
    (os : Os) (hos : ∀ e, os.tempFile e = .ok ()) (fuel64 : Nat) (m : MultiPart) (hc : 1 ≤ m.chunkSize)
    (hl : m.contentLength ≠ 0) (hs : List Builtin) (heap : Heap) (ht : Takes S m.contentLength hs)
    (input : LazyStream ρ) (hi : SOK L input) (hf : (L.sc input).length ≤ fuel64)
    (res : Outcome) (hb : ReadsGated C S (b!"--" ++ m.boundary) gate (L.sc input) ⟨[], [], none, 0, 0⟩ res) :
    ∃ R s' w', m.parse C S (gated gate (builtinOps ρ os hs.length)) fuel64 input ⟨hs, heap⟩ = (R, s', w') ∧
      SameButClosed (viewOf R w'.heap) res.view ∧
      (∀ g, res = .read g ∨ res = .stopped g false → L.sc s' = [] ∧ L.Inv s'.producer) ∧
      ((∀ b ∈ hs, b.Direct) → ∀ g b, res = .stopped g b →
        ∃ post files, viewOf R w'.heap = .ok (post, files) ∧ LastLost g.files files) := by
  have hraw := rawInputLoop_builtin (ρ := ρ) os hs.length ⟨m.contentLength, m.boundary, S⟩ input heap hs []
  simp only [List.length_nil, List.nil_append, ← List.range_eq_range'] at hraw
  have hraw' : rawInputLoop (gated gate (builtinOps ρ os hs.length)) ⟨m.contentLength, m.boundary, S⟩
      (List.range (gated gate (builtinOps ρ os hs.length)).count) input ⟨hs, heap⟩ =
      (.ok none, input, ⟨hs.map (Builtin.rawInput ⟨m.contentLength, m.boundary, S⟩), heap⟩) := by
    rw [range_gated]
    unfold rawInputLoop
    exact (rawInputLoop_gated _ _ _ _).trans hraw
  have hcl : ∀ (w : BWorld) done, (KReady hs.length w done ∧ ((∀ b ∈ hs, b.Direct) → ∀ b ∈ w.hs, b.Direct)) →
      ∃ w', closeFiles (builtinOps ρ os hs.length) (List.range (builtinOps ρ os hs.length).count) w = (.ok (), w') ∧
        (KReady hs.length w' done ∧ ((∀ b ∈ hs, b.Direct) → ∀ b ∈ w'.hs, b.Direct)) := by
    intro w done h
    obtain ⟨⟨⟨mid, b, post, hH, hlast⟩, hk⟩, hd⟩ := h
    obtain ⟨heap', k1, k2, -⟩ := closeFiles_builtin ρ os hs.length (List.range hs.length) w
      (fun i hi => by rw [hH.count]; exact List.mem_range.1 hi)
    exact ⟨_, k1, ⟨⟨mid, b, post, hH, hlast⟩, hk.closing k2⟩, hd⟩
  rcases parse_spec_stop (L := L) C S _ fuel64 m hc hl input input _ _ hraw' hi with
    ⟨e', h1, h2⟩ | ⟨_, r, D', st', s', R, w', h1, h2, h3, h4, h5⟩
  · rw [hq] at h1; simp at h1
  have habs : Abs (fun w done => KReady hs.length w done ∧ ((∀ b ∈ hs, b.Direct) → ∀ b ∈ w.hs, b.Direct))
      (BusyGated fun w cs done n d => KBusy hs.length w cs done n d ∧ ((∀ b ∈ hs, b.Direct) → ∀ b ∈ w.hs, b.Direct))
      (PState.start (gated gate (builtinOps ρ os hs.length))
        ⟨hs.map (Builtin.rawInput ⟨m.contentLength, m.boundary, S⟩), heap⟩) ⟨[], [], none, 0, 0⟩ := by
    obtain ⟨⟨mid, b, post, hH⟩, -⟩ := ht.ready m.boundary heap
    refine ⟨rfl, rfl, rfl, [], rfl, rfl, rfl, ⟨⟨mid, b, post, hH, by simp [Made.done]⟩, by simp [Kept, Made.done]⟩, ?_⟩
    intro hD b hb
    obtain ⟨b0, hb0, rfl⟩ := List.mem_map.1 hb
    have := hD b0 hb0
    cases b0 <;> trivial
  have hout := Parses.reads_gated hC hb ((builtin_keeps (ρ := ρ) hos hs.length).with_inv (direct_keeps (∀ b ∈ hs, b.Direct) ρ os hs.length)) hcl hf habs h2
  refine ⟨R, s', w', h1, ?_⟩
  have hup : ∀ w, uploadCompleteLoop (gated gate (builtinOps ρ os hs.length))
      (List.range (gated gate (builtinOps ρ os hs.length)).count) w = (.ok (), w) := by
    intro w
    rw [range_gated]
    unfold uploadCompleteLoop
    exact (uploadCompleteLoop_gated _ w).trans (uploadCompleteLoop_builtin _ _ w)
  have hview : ∀ (g : Ghost), Abs (fun w done => KReady hs.length w done ∧ ((∀ b ∈ hs, b.Direct) → ∀ b ∈ w.hs, b.Direct))
      (BusyGated fun w cs done n d => KBusy hs.length w cs done n d ∧ ((∀ b ∈ hs, b.Direct) → ∀ b ∈ w.hs, b.Direct)) st' g →
      ∀ heap', Closing st'.world.heap heap' →
      SameButClosed (viewOf (.ok (st'.post, st'.files)) heap') (.ok g.view) := by
    intro g ha heap' hcg
    obtain ⟨made, f1, f2, f3⟩ := ha.files
    have hst : Kept st'.world.heap made.done := by
      cases ho : g.old with
      | none => rw [ho] at f3; exact f3.2.1.2
      | some o =>
        rw [ho] at f3
        obtain ⟨_, _, _, c0, cs', _, f4⟩ := f3
        exact f4.1.1
    refine ⟨ha.post, ?_⟩
    have := Made.kept made (hst.closing hcg)
    rw [f1] at this
    simp only [Ghost.view, f2]
    exact this
  cases res with
  | read g =>
    obtain ⟨rfl, ha⟩ := hout
    simp only [endParse, hup, Prod.mk.injEq] at h3
    obtain ⟨rfl, rfl⟩ := h3
    exact ⟨hview g ha _ (Closing.refl _), fun _ _ => (h4 rfl).2, fun _ _ _ h => by cases h⟩
  | stopped g b =>
    obtain ⟨rfl, ha, ho⟩ := hout
    obtain ⟨made, f1, f2, f3⟩ := ha.files
    rw [ho] at f3
    obtain ⟨⟨⟨mid, bb, post, hH, hlast⟩, hkept⟩, hdir⟩ := f3.2
    obtain ⟨heap', k1, k2, k3⟩ := closeFiles_builtin ρ os hs.length (List.range hs.length) st'.world
      (fun i hi => by rw [hH.count]; exact List.mem_range.1 hi)
    have hcl' : closeFiles (gated gate (builtinOps ρ os hs.length))
        (List.range (gated gate (builtinOps ρ os hs.length)).count) st'.world = (.ok (), ⟨st'.world.hs, heap'⟩) := by
      rw [range_gated]
      unfold closeFiles
      exact (closeFiles_gated _ _).trans k1
    simp only [endParse, hcl', hup, Prod.mk.injEq] at h3
    obtain ⟨rfl, rfl⟩ := h3
    refine ⟨hview g ha _ k2, fun g' h => ?_, fun hD g' b' h => ?_⟩
    · rcases h with h | h
      · cases h
      · cases h; exact h5 rfl _ rfl
    · cases h
      refine ⟨_, _, rfl, ?_⟩
      rw [← f1, f2]
      refine Made.lost made (hkept.closing k2) fun q hq => ?_
      have hsp := hH.split
      have hbb : bb ∈ st'.world.hs := by rw [hsp]; simp
      refine k3 mid.length ?_ bb _ (by rw [hsp]; simp) (hlast q hq) ?_ (hkept.lt (List.mem_of_getLast? hq))
      · rw [List.mem_range, ← hH.count, hsp]; simp
      · rintro c rfl; exact hdir hD _ hbb
  | failed e =>
    obtain ⟨rfl, hne⟩ := hout
    have h3' : R = .error e := by
      cases e <;> first | (simp only [endParse, Prod.mk.injEq] at h3; exact h3.1.symm) | exact absurd rfl (hne _)
    refine ⟨by rw [h3']; rfl, ?_, fun _ _ _ h => by cases h⟩
    rintro g (h | h) <;> cases h

/-- **C100 and C101 for all of the built-in handlers**: behind a handler that refuses files the result is what the body
means when files may be refused (`Spec.ReadsGated`), except that files may have been closed: the same exception, or
the same `POST` and in `FILES` the same fields with files of the same names and sizes, of which each has the content
of its part or cannot be read.  Unless the connection is to be reset, the input is read to its end.  Missing: that no
file is closed; that is false (`C100_refuted`, `C101_last_refuted`). -/
theorem C100_all_partial {ρ : Type} [Producer ρ] {L : Lawful ρ} (C : Codecs) (hC : ∀ b, C.Avoids (.stopUpload b))
    (S : Settings) (hq : emptyQueryDict C S = .ok ()) (gate : NewFileArgs → Option Exc)
    (os : Os) (hos : ∀ e, os.tempFile e = .ok ()) (fuel64 : Nat) (m : MultiPart) (hc : 1 ≤ m.chunkSize)
    (hl : m.contentLength ≠ 0) (hs : List Builtin) (heap : Heap) (ht : Takes S m.contentLength hs)
    (input : LazyStream ρ) (hi : SOK L input) (hf : (L.sc input).length ≤ fuel64)
    (res : Outcome) (hb : ReadsGated C S (b!"--" ++ m.boundary) gate (L.sc input) ⟨[], [], none, 0, 0⟩ res) :
    ∃ R s' w', m.parse C S (gated gate (builtinOps ρ os hs.length)) fuel64 input ⟨hs, heap⟩ = (R, s', w') ∧
      SameButClosed (viewOf R w'.heap) res.view ∧
      (∀ g, res = .read g ∨ res = .stopped g false → L.sc s' = []) := by
  obtain ⟨R, s', w', h1, h2, h3, -⟩ := gated_builtin C hC S hq gate os hos fuel64 m hc hl hs heap ht input hi hf res hb
  exact ⟨R, s', w', h1, h2, fun g h => (h3 g h).1⟩

/-- **C101 is false of the code for every body**: with `MemoryFileUploadHandler`s and `TemporaryFileUploadHandler`s,
whenever an upload is stopped after some files were complete, the last of them is in `FILES`, with its name and size,
and cannot be read. -/
theorem C101_last_refuted {ρ : Type} [Producer ρ] {L : Lawful ρ} (C : Codecs) (hC : ∀ b, C.Avoids (.stopUpload b))
    (S : Settings) (hq : emptyQueryDict C S = .ok ()) (gate : NewFileArgs → Option Exc)
    (os : Os) (hos : ∀ e, os.tempFile e = .ok ()) (fuel64 : Nat) (m : MultiPart) (hc : 1 ≤ m.chunkSize)
    (hl : m.contentLength ≠ 0) (hs : List Builtin) (heap : Heap) (ht : Takes S m.contentLength hs)
    (input : LazyStream ρ) (hi : SOK L input) (hf : (L.sc input).length ≤ fuel64)
    (hd : ∀ b ∈ hs, b.Direct) (g : Ghost) (b : Bool) (fs : List (Bytes × Bytes × Bytes)) (n fn data : Bytes)
    (hg : g.files = fs ++ [(n, fn, data)])
    (hb : ReadsGated C S (b!"--" ++ m.boundary) gate (L.sc input) ⟨[], [], none, 0, 0⟩ (.stopped g b)) :
    ∃ R s' w', m.parse C S (gated gate (builtinOps ρ os hs.length)) fuel64 input ⟨hs, heap⟩ = (R, s', w') ∧
      ∃ post files vs, viewOf R w'.heap = .ok (post, files) ∧
        Dict.get? files n = some (vs ++ [(setName fn, data.length, none)]) := by
  obtain ⟨R, s', w', h1, -, -, h4⟩ := gated_builtin C hC S hq gate os hos fuel64 m hc hl hs heap ht input hi hf _ hb
  obtain ⟨post, files, h5, h6⟩ := h4 hd g b rfl
  obtain ⟨vs, h7⟩ := h6 (n, fn, data) (by rw [hg]; simp)
  exact ⟨R, s', w', h1, post, files, vs, h5, h7⟩

/-- The hypotheses are met by the body with two files, with files in memory, for every chunk size and cutting. -/
example (k : Nat) (hk : 1 ≤ k) (cs : List Bytes) (h : cs.flatten = twoFiles) :=
  C100_all_partial (L := Source.lawful) latinCodecs (fun b => latin_avoids (by simp) (by simp)) {} rfl (refuseS .skipFile)
    goodOs (fun _ => rfl) 1000 ⟨b!"B", k, 1000⟩ hk (by simp) [.memory {}, .temp {}] []
    ⟨⟨.temp {}, by simp, trivial⟩, by intro h hh _; decide⟩
    (LazyStream.mk' ⟨cs⟩) (SOK.fresh cs) (by rw [sc_fresh, h]; decide +kernel) _ (by
      rw [sc_fresh, h]; exact twoFiles_reads)

/-- What `twoFiles` means if the upload is stopped at `s`. -/
theorem twoFiles_stopped (c : Bool) : ReadsGated latinCodecs {} (b!"--" ++ b!"B") (refuseS (.stopUpload c))
    twoFiles ⟨[], [], none, 0, 0⟩
    (.stopped ⟨[], [(b!"f", b!"a", b!"hello")], none, 0, 0⟩ c) := by
  refine .part (t := .raw) (md := []) (content := []) (by decide +kernel) ?_ (by intro _ _ _ _ h; cases h)
    (.unnamed rfl (by decide +kernel)) ?_
  · have : cut (b!"--" ++ b!"B") twoFiles = [] := by decide +kernel
    rw [this]; exact .noHeader (by decide +kernel)
  have h1 : after (b!"--" ++ b!"B") twoFiles = twoFiles.drop 3 := by decide +kernel
  rw [h1]
  have c1 : cut (b!"--" ++ b!"B") (twoFiles.drop 3) =
      b!"\r\nContent-Disposition: form-data; name=\"f\"; filename=\"a\"\r\n\r\nhello" := by decide +kernel
  refine .part (by decide +kernel) (by
    rw [c1]; exact .header (i := 56) (by decide +kernel) rfl (by decide)) ?_
    (.file (name := b!"f") (fn := b!"a") (data := b!"hello") rfl rfl rfl rfl (by decide) (by decide) ?_ (by decide)) ?_
  · intro d n name fn _ h2 h3 _ _
    cases h2
    cases h3
    rfl
  · unfold FileData
    rw [if_neg (by decide +kernel)]
    rfl
  have h2 : after (b!"--" ++ b!"B") (twoFiles.drop 3) = twoFiles.drop 73 := by decide +kernel
  rw [h2]
  have c2 : cut (b!"--" ++ b!"B") (twoFiles.drop 73) =
      b!"\r\nContent-Disposition: form-data; name=\"s\"; filename=\"b\"\r\n\r\nxyz" := by decide +kernel
  exact .stop (by decide +kernel) (by
    rw [c2]; exact .header (i := 56) (by decide +kernel) rfl (by decide))
    ⟨_, _, b!"s", b!"b", rfl, rfl, rfl, rfl, by decide, rfl⟩

/-- The files of `twoFiles` with temporary files when the upload is stopped at `s`: `f` is there and cannot be read. -/
example (k : Nat) (hk : 1 ≤ k) (cs : List Bytes) (h : cs.flatten = twoFiles) :
    ∃ R s' w', (⟨b!"B", k, 1000⟩ : MultiPart).parse latinCodecs {}
      (gated (refuseS (.stopUpload true)) (builtinOps Source goodOs 1)) 1000 (LazyStream.mk' ⟨cs⟩) ⟨[.temp {}], []⟩ = (R, s', w') ∧
      ∃ post files vs, viewOf R w'.heap = .ok (post, files) ∧ Dict.get? files b!"f" = some (vs ++ [(b!"a", 5, none)]) :=
  C101_last_refuted (L := Source.lawful) latinCodecs (fun b => latin_avoids (by simp) (by simp)) {} rfl
    (refuseS (.stopUpload true)) goodOs (fun _ => rfl) 1000 ⟨b!"B", k, 1000⟩ hk (by simp) [.temp {}] []
    ⟨⟨.temp {}, by simp, trivial⟩, by intro h hh _; decide⟩
    (LazyStream.mk' ⟨cs⟩) (SOK.fresh cs) (by rw [sc_fresh, h]; decide +kernel) (by simp [Builtin.Direct])
    ⟨[], [(b!"f", b!"a", b!"hello")], none, 0, 0⟩ true [] b!"f" b!"a" b!"hello" rfl (by
      rw [sc_fresh, h]; exact twoFiles_stopped true)

end Verif
