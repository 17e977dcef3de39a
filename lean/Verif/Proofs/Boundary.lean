import Verif.Model.Boundary
import Verif.Spec.Boundary
import Verif.Spec.Stream
import Verif.Proofs.Find
import Verif.Proofs.Stream
/-! `BoundaryIter` as a lawful producer; the anti-loop guard of the body stream. -/

namespace Verif
open Spec

/-- Data of the part at the front of `body` (functional form of `Spec.Cut`). -/
def cut (sep body : Bytes) : Bytes :=
  match Py.find sep body with
  | none => body
  | some i => stripEol (body.take i)

/-- What follows the first separator. -/
def after (sep body : Bytes) : Bytes :=
  match Py.find sep body with
  | none => []
  | some i => body.drop (i + sep.length)

theorem cut_after_Cut (sep body : Bytes) : Cut sep body (cut sep body) (after sep body) := by
  unfold cut after
  cases h : Py.find sep body with
  | none => exact Cut.nosep (Py.find_none_iff_not_infix.1 h) rfl rfl
  | some i =>
    have hb := Py.find_bound h
    refine Cut.sep (body.take i) (Py.find_decomp h) ?_ rfl
    intro p r e
    by_contra hc
    simp at hc
    refine (Py.find_some.1 h).2.2 p.length (by omega) ?_
    rw [e]; simp

theorem Cut_unique {sep body p r : Bytes} (h : Cut sep body p r) :
    p = cut sep body ∧ r = after sep body := by
  unfold cut after
  cases h with
  | nosep h1 h2 h3 => rw [Py.find_none_iff_not_infix.2 h1]; exact ⟨h2, h3⟩
  | sep pre h1 h2 h3 =>
    have : Py.find sep body = some pre.length := by
      refine Py.find_some.2 ⟨by simp [h1], by simp [h1], fun j hj hp => ?_⟩
      obtain ⟨t, ht⟩ := hp
      have := h2 (body.take j) t (by rw [List.append_assoc, ht, List.take_append_drop])
      have h4 : body.length = pre.length + sep.length + r.length := by simp [h1]; omega
      simp at this; omega
    rw [this]; simp [h1, h3]

/-! ### stripEol -/

theorem stripEol_two (w : Bytes) (a b : UInt8) : stripEol (w ++ [a, b]) =
    if b = 10 then (if a = 13 then w else w ++ [a])
    else if b = 13 then w ++ [a] else w ++ [a, b] := by
  unfold stripEol
  simp only [List.reverse_append, List.reverse_cons, List.reverse_nil, List.nil_append,
    List.cons_append]
  split
  · rename_i h; simp at h; simp [← h.2.2, h.1, h.2.1]
  · rename_i h1 h; simp at h
    obtain ⟨rfl, rfl⟩ := h
    have : a ≠ 13 := by rintro rfl; exact h1 _ rfl
    simp [this]
  · rename_i h; simp at h
    obtain ⟨rfl, rfl⟩ := h
    simp
  · rename_i h1 h2 h3
    have hb : b ≠ 10 := by rintro rfl; exact h2 _ rfl
    have hb' : b ≠ 13 := by rintro rfl; exact h3 _ rfl
    simp [hb, hb']

theorem stripEol_one (a : UInt8) : stripEol [a] = if a = 10 ∨ a = 13 then [] else [a] := by
  unfold stripEol
  simp only [List.reverse_cons, List.reverse_nil, List.nil_append]
  split
  · rename_i h; simp at h
  · rename_i h1 h; simp at h; obtain ⟨rfl, rfl⟩ := h; simp
  · rename_i h; simp at h; obtain ⟨rfl, rfl⟩ := h; simp
  · rename_i h1 h2 h3
    have hb : a ≠ 10 := by rintro rfl; exact h2 _ rfl
    have hb' : a ≠ 13 := by rintro rfl; exact h3 _ rfl
    simp [hb, hb']

theorem stripEol_nil : stripEol [] = [] := rfl

theorem exists_two {z : Bytes} (hz : 2 ≤ z.length) : ∃ w a b, z = w ++ [a, b] := by
  have h1 : z ≠ [] := by intro h; simp [h] at hz
  have h2 : z.dropLast ≠ [] := by
    intro h; have := congrArg List.length h; simp at this; omega
  refine ⟨z.dropLast.dropLast, z.dropLast.getLast h2, z.getLast h1, ?_⟩
  have e1 := List.dropLast_append_getLast h1
  have e2 := List.dropLast_append_getLast h2
  calc z = z.dropLast ++ [z.getLast h1] := e1.symm
    _ = (z.dropLast.dropLast ++ [z.dropLast.getLast h2]) ++ [z.getLast h1] := by rw [e2]
    _ = _ := by simp

theorem stripEol_append {y z : Bytes} (hz : 2 ≤ z.length) :
    stripEol (y ++ z) = y ++ stripEol z := by
  obtain ⟨w, a, b, rfl⟩ := exists_two hz
  rw [← List.append_assoc, stripEol_two, stripEol_two]
  split_ifs <;> simp

theorem stripEol_length_le (z : Bytes) : (stripEol z).length ≤ z.length := by
  rcases Nat.lt_or_ge z.length 2 with h | h
  · match z, h with
    | [], _ => simp [stripEol_nil]
    | [a], _ => rw [stripEol_one]; split <;> simp
  · obtain ⟨w, a, b, rfl⟩ := exists_two h
    rw [stripEol_two]; split_ifs <;> simp

/-- `_find_boundary` finds the first separator and backs up over one line end. -/
theorem findBoundary_some {sep data : Bytes} {c : UInt8} {t : Bytes} (hsep : sep = c :: t)
    (h10 : c ≠ 10) (h13 : c ≠ 13) {i : Nat} (h : Py.find sep data = some i) :
    ∃ e, BoundaryIter.findBoundary sep data = some (e, i + sep.length) ∧
      data.take e = stripEol (data.take i) := by
  have hd := Py.find_decomp h
  have hb := Py.find_bound h
  unfold BoundaryIter.findBoundary
  rw [h]
  simp only [Option.some.injEq, Prod.mk.injEq]
  generalize hpre : data.take i = pre at *
  have hlen : pre.length = i := by rw [← hpre]; simp; omega
  generalize data.drop (i + sep.length) = rest at *
  clear hpre h hb
  subst hd hlen
  refine ⟨_, ⟨rfl, trivial⟩, ?_⟩
  rcases Nat.lt_or_ge pre.length 2 with hl | hl
  · match pre, hl with
    | [], _ => subst hsep; simp [stripEol_nil, h10, h13]
    | [a], _ =>
      subst hsep
      rw [stripEol_one]
      by_cases ha : a = 10
      · simp [ha]
      · by_cases hb : a = 13
        · simp [hb]
        · simp [ha, hb]
  · obtain ⟨w, a, b, rfl⟩ := exists_two hl
    rw [stripEol_two]
    have e1 : (w ++ [a, b]).length - 1 = w.length + 1 := by simp
    rw [e1]
    have e2 : ((w ++ [a, b] ++ sep ++ rest).drop (w.length + 1)).take 1 = [b] := by
      rw [show w ++ [a, b] ++ sep ++ rest = (w ++ [a]) ++ (b :: (sep ++ rest)) by simp]
      rw [show w.length + 1 = (w ++ [a]).length by simp, List.drop_left]; simp
    have e3 : ((w ++ [a, b] ++ sep ++ rest).drop w.length).take 1 = [a] := by
      rw [show w ++ [a, b] ++ sep ++ rest = w ++ (a :: (b :: (sep ++ rest))) by simp]
      rw [List.drop_left]; simp
    rw [e2]
    by_cases hb : b = 10
    · subst hb
      simp only [if_true, Nat.add_sub_cancel, e3]
      by_cases ha : a = 13
      · subst ha; simp
      · simp [ha, List.take_append]
    · have e4 : (w ++ [a, b]).length = w.length + 2 := by simp
      simp only [List.cons.injEq, hb, and_true, if_false]
      rw [e4, show w.length + 2 - 1 = w.length + 1 by omega, e2]
      by_cases hb' : b = 13
      · subst hb'
        simp [List.take_append]
      · simp [hb', List.take_append]

theorem findBoundary_none {sep data : Bytes} (h : Py.find sep data = none) :
    BoundaryIter.findBoundary sep data = none := by
  simp [BoundaryIter.findBoundary, h]

/-! ### The push-back history of the body stream -/

/-- Every prefix (newest entries) holds at most `c` more ones than larger entries. -/
def OnesOK (c : Nat) (h : List Nat) : Prop :=
  ∀ k, (h.take k).count 1 ≤ (h.take k).countP (2 ≤ ·) + c

theorem OnesOK.nil (c) : OnesOK c [] := by intro k; simp

theorem OnesOK.mono {c c' h} (H : OnesOK c h) (hc : c ≤ c') : OnesOK c' h := fun k => by
  have := H k; omega

theorem OnesOK.take {c h} (H : OnesOK c h) (n : Nat) : OnesOK c (h.take n) := fun k => by
  rw [List.take_take]; exact H _

theorem OnesOK.one {c h} (H : OnesOK c h) : OnesOK (c + 1) (1 :: h) := by
  intro k
  cases k with
  | zero => simp
  | succ k =>
    have := H k
    simp [List.take_succ_cons, List.count_cons, List.countP_cons]; omega

theorem OnesOK.big {c h m} (H : OnesOK c h) (hm : 2 ≤ m) : OnesOK c (m :: h) := by
  intro k
  cases k with
  | zero => simp
  | succ k =>
    have := H k
    have h1 : m ≠ 1 := by omega
    simp [List.take_succ_cons, List.count_cons, List.countP_cons, hm, h1]; omega

/-- one after a large entry -/
theorem OnesOK.one_big {c h m} (H : OnesOK c h) (hm : 2 ≤ m) (hc : 1 ≤ c) :
    OnesOK c (1 :: m :: h) := by
  intro k
  match k with
  | 0 => simp
  | 1 => simp; omega
  | k + 2 =>
    have := H k
    have h1 : m ≠ 1 := by omega
    simp [List.take_succ_cons, List.count_cons, List.countP_cons, hm, h1]; omega

theorem OnesOK.count {c h} (H : OnesOK c h) (hl : h.length ≤ 50) : 2 * h.count 1 ≤ 50 + c := by
  have h1 := H h.length
  rw [List.take_length] at h1
  have h2 : h.count 1 + h.countP (2 ≤ ·) ≤ h.length := by
    clear H h1 hl
    induction h with
    | nil => simp
    | cons a t ih =>
      simp only [List.count_cons, List.countP_cons, List.length_cons]
      by_cases h1 : a = 1
      · subst h1; simp; omega
      · have : (a == 1) = false := by simp [h1]
        simp [this]; split <;> omega
  omega

theorem filter_eq_count (m : Nat) (h : List Nat) : (h.filter (· = m)).length = h.count m := by
  rw [List.count, List.countP_eq_length_filter]
  congr 1

/-- History of the body stream: all entries other than 1 are at least `lb`, none occurs
more than twice, and ones are balanced by larger entries. -/
structure MH (lb c : Nat) (h : List Nat) : Prop where
  big : ∀ v ∈ h, v = 1 ∨ lb ≤ v
  cnt : ∀ v, 2 ≤ v → h.count v ≤ 2
  ones : OnesOK c h

theorem MH.nil (lb c) : MH lb c [] := ⟨by simp, by simp, OnesOK.nil c⟩

theorem MH.mono {lb lb' c c' h} (H : MH lb c h) (hl : lb' ≤ lb) (hc : c ≤ c') : MH lb' c' h :=
  ⟨fun v hv => (H.big v hv).imp id (fun h => hl.trans h), H.cnt, H.ones.mono hc⟩

theorem MH.take {lb c h} (H : MH lb c h) (n : Nat) : MH lb c (h.take n) :=
  ⟨fun v hv => H.big v (List.mem_of_mem_take hv),
   fun v hv => ((List.take_sublist n h).count_le v).trans (H.cnt v hv), H.ones.take n⟩

theorem MH.count_lt {lb c h v} (H : MH lb c h) (hv : 2 ≤ v) (hl : v < lb) : h.count v = 0 := by
  rw [List.count_eq_zero]
  intro hm
  rcases H.big v hm with h | h <;> omega

theorem MH.push_big {lb c h m} (H : MH lb c h) (hm : 2 ≤ m) (hl : m ≤ lb)
    (hc : h.count m ≤ 1) : MH m c (m :: h) := by
  refine ⟨?_, ?_, H.ones.big hm⟩
  · intro v hv
    rcases List.mem_cons.1 hv with rfl | hv
    · right; exact le_refl _
    · exact (H.big v hv).imp id (fun h => hl.trans h)
  · intro v hv
    rw [List.count_cons]
    split
    · rename_i h; simp at h; subst h; omega
    · have := H.cnt v hv; omega

theorem MH.push_one {lb c h} (H : MH lb c h) : MH lb (c + 1) (1 :: h) := by
  refine ⟨?_, ?_, H.ones.one⟩
  · intro v hv
    rcases List.mem_cons.1 hv with rfl | hv
    · left; rfl
    · exact H.big v hv
  · intro v hv
    rw [List.count_cons]
    have : (1 == v) = false := by simp; omega
    rw [this]; simpa using H.cnt v hv

theorem MH.push_one_big {lb c h m} (H : MH lb c h) (hm : 2 ≤ m) (hl : m < lb) (hc : 1 ≤ c) :
    MH m c (1 :: m :: h) := by
  have h1 := (H.push_big hm hl.le (by rw [H.count_lt hm hl]; omega)).push_one
  exact ⟨h1.big, h1.cnt, H.ones.one_big hm hc⟩

/-- the guard does not fire for a history of this shape -/
theorem MH.guard {lb c m} {h : List Nat} (H : MH lb c (m :: h.take 49)) (hc : c ≤ 30) (hm : 1 ≤ m) :
    ((m :: h.take 49).filter (· = m)).length ≤ 40 := by
  rw [filter_eq_count]
  by_cases h1 : m = 1
  · subst h1
    have := H.ones.count (by simp)
    omega
  · have := H.cnt m (by omega)
    omega

/-- Between parts: `l` is the length of the leftover. -/
def Strong (h : List Nat) (l : Nat) : Prop := MH l (3 - min l 2) h

/-- After the one-byte probe of `BoundaryIter.__init__`. -/
def Weak (h : List Nat) (l : Nat) : Prop :=
  MH (l - 1) (if 3 ≤ l then 1 else 3) h ∧ (2 ≤ l - 1 → h.count (l - 1) ≤ 1)

theorem Strong.nil (l) : Strong [] l := MH.nil _ _

theorem Strong.weak {h l} (H : Strong h l) : Weak h l := by
  refine ⟨H.mono (by omega) ?_, fun hl => ?_⟩
  · split <;> omega
  · rw [H.count_lt hl (by omega)]; omega

theorem Strong.zero {h l} (H : Strong h l) : Strong h 0 := H.mono (by omega) (by omega)

theorem Weak.zero {h l} (H : Weak h l) : Strong h 0 := H.1.mono (by omega) (by split <;> omega)

/-- The history after the one-byte probe: `L - 1` (if non-zero), then 1. -/
theorem Strong.probe {h : List Nat} {L : Nat} (H : Strong h L) (hL : 1 ≤ L) :
    (2 ≤ L → (((L - 1) :: h.take 49).filter (· = L - 1)).length ≤ 40) ∧
    ∀ h1, h1 = (if L = 1 then h else (L - 1) :: h.take 49) →
      ((1 :: h1.take 49).filter (· = 1)).length ≤ 40 ∧ Weak (1 :: h1.take 49) L := by
  unfold Strong at H
  rcases Nat.lt_or_ge L 3 with h3 | h3
  · rcases (show L = 1 ∨ L = 2 by omega) with rfl | rfl
    · refine ⟨by omega, ?_⟩
      rintro h1 rfl
      have := (H.take 49).push_one
      exact ⟨by simpa using this.guard (by simp) (le_refl _), this.mono (by omega) (by simp), by omega⟩
    · have a1 := (H.take 49).push_one
      have a2 := (a1.take 49).push_one
      refine ⟨fun _ => by simpa using a1.guard (by simp) (le_refl _), ?_⟩
      rintro h1 rfl
      simp only [show ¬ (2 = 1) by omega, if_false]
      exact ⟨by simpa using a2.guard (by simp) (le_refl _), a2.mono (by omega) (by simp), by omega⟩
  · have hc : 3 - min L 2 = 1 := by omega
    rw [hc] at H
    have a1 := (H.take 49).push_big (m := L - 1) (by omega) (by omega)
      (by rw [(H.take 49).count_lt (by omega) (by omega)]; omega)
    refine ⟨fun _ => by simpa using a1.guard (by omega) (by omega), ?_⟩
    rintro h1 rfl
    rw [if_neg (by omega)]
    have hb : (((L - 1) :: h.take 49).take 49) = (L - 1) :: (h.take 49).take 48 := by simp
    have H2 := ((H.take 49).take 48)
    have a2 := H2.push_one_big (m := L - 1) (by omega) (by omega) (le_refl _)
    have a3 : MH (L-1) 1 (1 :: ((L - 1) :: h.take 49).take 49) := by rw [hb]; exact a2
    refine ⟨a3.guard (by omega) (le_refl _), ?_, fun _ => ?_⟩
    · rw [if_pos h3]; exact a3
    · rw [hb, List.count_cons, List.count_cons, H2.count_lt (by omega) (by omega)]
      have : (1 == L - 1) = false := by simp; omega
      rw [this]; simp

/-- Pushing back what follows a separator. -/
theorem Weak.pushSep {h : List Nat} {L R : Nat} (H : Weak h L) (hR : R + 2 ≤ L) (hR1 : 1 ≤ R) :
    ((R :: h.take 49).filter (· = R)).length ≤ 40 ∧ Strong (R :: h.take 49) R := by
  have H1 := H.1.take 49
  rw [if_pos (by omega)] at H1
  by_cases h1 : R = 1
  · subst h1
    have := H1.push_one
    exact ⟨this.guard (by omega) (le_refl _), this.mono (by omega) (by omega)⟩
  · have := H1.push_big (m := R) (by omega) (by omega)
      (by rw [H1.count_lt (by omega) (by omega)]; omega)
    exact ⟨this.guard (by omega) (by omega), this.mono (le_refl _) (by omega)⟩

/-- Pushing back the roll-back window. -/
theorem Weak.pushRoll {h : List Nat} {L R : Nat} (H : Weak h L) (hR : R < L) (hR1 : 2 ≤ R) :
    ((R :: h.take 49).filter (· = R)).length ≤ 40 ∧ Strong (R :: h.take 49) R := by
  have H1 := H.1.take 49
  rw [if_pos (by omega)] at H1
  have hcnt : (h.take 49).count R ≤ 1 := by
    rcases Nat.lt_or_ge R (L - 1) with h | h
    · rw [H1.count_lt (by omega) h]; omega
    · obtain rfl : R = L - 1 := by omega
      exact ((List.take_sublist 49 _).count_le _).trans (H.2 (by omega))
  have := H1.push_big (m := R) (by omega) (by omega) hcnt
  exact ⟨this.guard (by omega) (by omega), this.mono (le_refl _) (by omega)⟩

/-- A push that the guard accepts. -/
theorem LazyStream.unget_ok {σ : Type} (s : LazyStream σ) (b : Bytes)
    (h : b ≠ [] → ((b.length :: s.history.take 49).filter (· = b.length)).length ≤ 40) :
    ∃ s', s.unget b = (.ok (), s') ∧ s'.producer = s.producer ∧ s'.leftover = b ++ s.leftover ∧
      s'.position = s.position - b.length ∧ s'.length = s.length ∧
      s'.history = (if b = [] then s.history else b.length :: s.history.take 49) := by
  rcases LazyStream.unget_spec s b with h1 | ⟨s', _, h1, h2⟩
  · exact h1
  · have := h h1; omega

section
variable {σ : Type} [Producer σ] (L : Lawful σ)

/-- The producer never yields an empty chunk. -/
def NonEmptyChunks (σ : Type) [Producer σ] : Prop :=
  ∀ (p p' : σ) (c : Bytes), Producer.next p = (.ok (some c), p') → c ≠ []

theorem BoundaryIter.create_spec (ne : NonEmptyChunks σ) (s : LazyStream σ) (sep : Bytes)
    (hI : L.Inv s.producer) (hH : Strong s.history s.leftover.length) :
    (∃ s', create s sep = (.error .inputStreamExhausted, s') ∧ L.sc s = [] ∧ L.sc s' = [] ∧
      L.Inv s'.producer ∧ L.End s'.producer ∧ s'.leftover = [] ∧
      Strong s'.history s'.leftover.length ∧ s'.length = s.length) ∨
    (∃ s', create s sep =
        (.ok { stream := s', boundary := sep, rollback := sep.length + 6 }, s') ∧
      L.sc s ≠ [] ∧ L.sc s' = L.sc s ∧ L.Inv s'.producer ∧
      Weak s'.history s'.leftover.length ∧ s'.size ≤ s.size ∧ s'.position = s.position ∧
      s'.length = s.length) := by
  unfold create
  have e0 : s.read (some 1) = LazyStream.readLoop (s.size + 1) 1 [] s := by
    simp [LazyStream.read]
  rw [e0]
  unfold LazyStream.readLoop
  simp only [one_ne_zero, if_false]
  rcases LazyStream.next_spec L s hI with
    ⟨s1, e, a1, a2, a3, a4, a5, a6, a7, a8, a9, a10⟩ |
    ⟨c, s1, e, a1, a2, a3, a4, a5, a6, a7, a8⟩
  · left
    rw [e]
    refine ⟨s1, by simp, a3, a4, a1, a2, a6, ?_, a9⟩
    rw [a8, a6]; rw [a5] at hH; exact hH
  · right
    rw [e]
    have hcne : c ≠ [] := by
      rcases a5 with ⟨b1, b2, _⟩ | ⟨_, _, b3⟩
      · rw [b2]; exact b1
      · exact ne _ _ _ b3
    have hS : Strong s1.history c.length := by
      rcases a5 with ⟨_, b2, b3, _⟩ | ⟨_, b2, _⟩
      · rw [b2, b3]; exact hH
      · rw [b2]; exact Strong.nil _
    have hpos := List.length_pos_iff.2 hcne
    obtain ⟨p1, p2⟩ := hS.probe hpos
    obtain ⟨s2, e2, b1, b2, b3, b4, b5⟩ := LazyStream.unget_ok s1 (c.drop 1) (by
      intro hne
      have := List.length_pos_iff.2 hne
      have h1 : (c.drop 1).length = c.length - 1 := by simp
      rw [h1]; exact p1 (by simp at this; omega))
    have h2 : s2.history = if c.length = 1 then s1.history else (c.length - 1) :: s1.history.take 49 := by
      rw [b5]
      by_cases h : c.length = 1
      · rw [if_pos h, if_pos (by apply List.drop_eq_nil_of_le; omega)]
      · rw [if_neg h, if_neg (by
          intro hh; have := congrArg List.length hh; simp at this; omega)]; simp
    obtain ⟨p3, p4⟩ := p2 s2.history h2
    obtain ⟨x, t, rfl⟩ := List.exists_cons_of_ne_nil hcne
    simp only at e2 ⊢
    rw [e2]
    have e3 : LazyStream.readLoop s.size (1 - (List.take 1 (x :: t)).length)
        ([] ++ List.take 1 (x :: t)) s2 = (.ok [x], s2) := by
      cases s.size <;> simp [LazyStream.readLoop]
    simp only
    rw [e3]
    simp only [List.cons_ne_nil, if_false]
    obtain ⟨s3, f1, f2, f3, f4, f5, f6⟩ := LazyStream.unget_ok s2 [x] (by
      intro _; simpa using p3)
    rw [f1]
    have hl3 : s3.leftover = x :: t := by simp [f3, b2, a3]
    have hsc : L.sc s3 = L.sc s := by
      rw [a2]; simp [Lawful.sc, f2, b1, hl3, a3]
    refine ⟨s3, rfl, ?_, hsc, ?_, ?_, ?_, ?_, ?_⟩
    · rw [a2]; simp
    · rw [f2, b1]; exact a1
    · rw [f6, hl3]; simpa using p4
    · have : s1.size = Producer.size s1.producer := by simp [LazyStream.size, a3]
      rw [this] at a8
      simp only [LazyStream.size, f2, b1, hl3] at a8 ⊢; omega
    · rw [f4, b3, a4]; simp; omega
    · rw [f5, b4, a6]

theorem BoundaryIter.gather_spec (ne : NonEmptyChunks σ) (rb : Nat) :
    ∀ (fuel : Nat) (acc : Bytes) (any : Bool) (s : LazyStream σ), L.Inv s.producer →
      s.size < fuel → acc.length ≤ rb → (any = false ↔ acc = []) →
      ∃ x stopped s', gather rb fuel acc any s = (.ok (acc ++ x, !decide (acc ++ x = []), stopped), s') ∧
        L.Inv s'.producer ∧ L.sc s = x ++ L.sc s' ∧ s'.leftover = [] ∧
        s'.size + x.length ≤ s.size ∧ s'.length = s.length ∧
        s'.position = s.position + x.length ∧
        (stopped = true → L.sc s' = [] ∧ (acc ++ x).length ≤ rb ∧ L.End s'.producer) ∧
        (stopped = false → rb < (acc ++ x).length) ∧
        ((x = s.leftover ∧ s'.history = s.history) ∨ s'.history = []) := by
  intro fuel
  induction fuel with
  | zero => intro acc any s _ h; omega
  | succ fuel ih =>
    intro acc any s hI hf hacc hany
    unfold gather
    rcases LazyStream.next_spec L s hI with
      ⟨s1, e, a1, a2, a3, a4, a5, a6, a7, a8, a9, a10⟩ |
      ⟨c, s1, e, a1, a2, a3, a4, a5, a6, a7, a8⟩
    · rw [e]
      refine ⟨[], true, s1, ?_, a1, by simp [a3, a4], a6, by simpa using a10, a9, by simp [a7], ?_, by simp, ?_⟩
      · simp only [List.append_nil, Prod.mk.injEq, Except.ok.injEq, true_and, and_true]
        cases any <;> simp_all
      · intro _; exact ⟨a4, by simpa using hacc, a2⟩
      · left; exact ⟨a5.symm, a8⟩
    · rw [e]
      have hcne : c ≠ [] := by
        rcases a5 with ⟨b1, b2, _⟩ | ⟨_, _, b3⟩
        · rw [b2]; exact b1
        · exact ne _ _ _ b3
      simp only
      by_cases hlt : (acc ++ c).length > rb
      · rw [if_pos hlt]
        refine ⟨c, false, s1, by simp [hcne], a1, a2, a3, a8, a6, a4, by simp, fun _ => hlt, ?_⟩
        rcases a5 with ⟨_, b2, b3, _⟩ | ⟨_, b2, _⟩
        · left; exact ⟨b2, b3⟩
        · right; exact b2
      · rw [if_neg hlt, if_neg hcne]
        obtain ⟨x, st, s', f1, f2, f3, f4, f5, f6, f6', f7, f8, f9⟩ :=
          ih (acc ++ c) true s1 a1 (by omega) (by omega) (by simp [hcne])
        refine ⟨c ++ x, st, s', ?_, f2, ?_, f4, ?_, by rw [f6, a6], ?_, ?_, ?_, ?_⟩
        · rw [f1]; simp
        · rw [a2, f3]; simp
        · simp; omega
        · rw [f6', a4]; simp; omega
        · simpa using f7
        · simpa using f8
        · rcases f9 with ⟨h1, h2⟩ | h
          · rw [a3] at h1
            subst h1
            rcases a5 with ⟨_, b2, b3, _⟩ | ⟨_, b2, _⟩
            · left; exact ⟨by simp [b2], by rw [h2, b3]⟩
            · right; rw [h2, b2]
          · right; exact h

/-- A usable separator: at least two bytes, not starting with a line end. -/
structure SepOK (sep : Bytes) : Prop where
  len : 2 ≤ sep.length
  head : ∃ c t, sep = c :: t ∧ c ≠ 10 ∧ c ≠ 13

theorem SepOK.dashes (b : Bytes) : SepOK (b!"--" ++ b) :=
  ⟨by simp, 45, 45 :: b, by simp, by decide, by decide⟩

/-- Moving a boundary-free prefix (minus the roll-back window) out of the data does not
change the cut. -/
theorem cut_roll {sep chunk rest : Bytes} {r : Nat} (hr : r = sep.length + 6)
    (hn : Py.find sep chunk = none) (hl : r < chunk.length) :
    let y := chunk.take (chunk.length - r)
    let z := chunk.drop (chunk.length - r) ++ rest
    cut sep (chunk ++ rest) = y ++ cut sep z ∧ after sep (chunk ++ rest) = after sep z := by
  intro y z
  have hyz : y ++ z = chunk ++ rest := by simp [y, z, ← List.append_assoc]
  have hy : y.length = chunk.length - r := by simp [y]
  have hno : ∀ j < y.length, ¬ sep <+: (chunk ++ rest).drop j := by
    intro j hj hp
    refine Py.find_none.1 hn j (by omega) ?_
    rw [List.drop_append_of_le_length (by omega)] at hp
    refine List.prefix_of_prefix_length_le hp (List.prefix_append _ _) ?_
    simp; omega
  have hz : (chunk ++ rest).drop y.length = z := by rw [← hyz]; simp
  have hf := Py.find_drop (s := chunk ++ rest) (n := y.length) (by simp; omega) hno
  rw [hz] at hf
  unfold cut after
  cases h : Py.find sep z with
  | none =>
    rw [h] at hf; simp only [Option.map_none] at hf; rw [hf]; simp [hyz]
  | some i =>
    rw [h] at hf; simp only [Option.map_some] at hf; rw [hf]
    have hgt := Py.find_append_gt hn hf
    have hi : 2 ≤ i := by omega
    have hb := Py.find_bound h
    constructor
    · simp only
      have : (chunk ++ rest).take (i + y.length) = y ++ z.take i := by
        rw [← hyz, List.take_append]; simp
      rw [this, stripEol_append (by simp; omega)]
    · simp only
      rw [← hyz, show i + y.length + sep.length = y.length + (i + sep.length) by omega, List.drop_append]
      simp

theorem BoundaryIter.next_core (ne : NonEmptyChunks σ) {sep : Bytes} (hs : SepOK sep)
    (b : BoundaryIter σ) (hb : b.boundary = sep) (hr : b.rollback = sep.length + 6)
    (hd : b.done = false) (hI : L.Inv b.stream.producer)
    (hH : Weak b.stream.history b.stream.leftover.length) :
    (∃ b', b.next = (.ok none, b') ∧ L.sc b.stream = [] ∧ b'.done = true ∧
      b'.boundary = sep ∧ b'.rollback = sep.length + 6 ∧ L.Inv b'.stream.producer ∧
      L.sc b'.stream = [] ∧ Strong b'.stream.history b'.stream.leftover.length ∧
      b'.stream.size ≤ b.stream.size ∧ b'.stream.length = b.stream.length) ∨
    (∃ c b', b.next = (.ok (some c), b') ∧ L.sc b.stream ≠ [] ∧
      b'.boundary = sep ∧ b'.rollback = sep.length + 6 ∧ L.Inv b'.stream.producer ∧
      Strong b'.stream.history b'.stream.leftover.length ∧
      b'.stream.size + c.length ≤ b.stream.size ∧ b'.stream.size < b.stream.size ∧
      b'.stream.length = b.stream.length ∧
      ((b'.done = true ∧ c = cut sep (L.sc b.stream) ∧
          L.sc b'.stream = after sep (L.sc b.stream)) ∨
       (b'.done = false ∧ c ≠ [] ∧ L.sc b.stream = c ++ L.sc b'.stream ∧
          cut sep (L.sc b.stream) = c ++ cut sep (L.sc b'.stream) ∧
          after sep (L.sc b.stream) = after sep (L.sc b'.stream)))) := by
  unfold next
  simp only [hd, Bool.false_eq_true, if_false]
  obtain ⟨x, st, s1, g1, g2, g3, g4, g5, g6, _, g7, g8, g9⟩ :=
    gather_spec L ne b.rollback (b.stream.size + 1) [] false b.stream hI (by omega) (by simp) (by simp)
  simp only [List.nil_append] at g1 g7 g8
  rw [g1]
  simp only
  have hS0 : Strong s1.history 0 := by
    rcases g9 with ⟨_, h⟩ | h
    · rw [h]; exact hH.zero
    · rw [h]; exact Strong.nil _
  by_cases hx : x = []
  · left
    subst hx
    have hst : st = true := by
      cases st with
      | true => rfl
      | false => have := g8 rfl; simp at this
    subst hst
    refine ⟨{ b with stream := s1, done := true }, by simp, by rw [g3, (g7 rfl).1]; rfl, rfl, hb, hr, g2, (g7 rfl).1, ?_, ?_, g6⟩
    · simp only [g4]; exact hS0
    · simpa using g5
  · right
    simp only [hx, decide_false, Bool.not_false, Bool.true_eq_false, if_false]
    have hW : Weak s1.history x.length := by
      rcases g9 with ⟨h1, h⟩ | h
      · rw [h, h1]; exact hH
      · rw [h]; exact (Strong.nil _).weak
    have hscne : L.sc b.stream ≠ [] := by rw [g3]; simp [hx]
    rw [hb]
    cases hf : Py.find sep x with
    | some i =>
      obtain ⟨c, t, hs1, hs2, hs3⟩ := hs.head
      obtain ⟨e, f1, f2⟩ := findBoundary_some hs1 hs2 hs3 hf
      have hbd := Py.find_bound hf
      have hslen := hs.len
      rw [f1]
      simp only
      have hpush : x.drop (i + sep.length) ≠ [] →
          (((x.drop (i + sep.length)).length :: s1.history.take 49).filter
            (· = (x.drop (i + sep.length)).length)).length ≤ 40 ∧
          Strong ((x.drop (i + sep.length)).length :: s1.history.take 49)
            (x.drop (i + sep.length)).length := by
        intro hne
        have := List.length_pos_iff.2 hne
        exact hW.pushSep (by simp at this ⊢; omega) this
      obtain ⟨s2, u1, u2, u3, u4, u5, u6⟩ := LazyStream.unget_ok s1 (x.drop (i + sep.length))
        (fun hne => (hpush hne).1)
      rw [u1]
      simp only
      have hfull := Py.find_append_left (t := L.sc s1) hf
      have hsc2 : L.sc s2 = x.drop (i + sep.length) ++ L.sc s1 := by
        simp [Lawful.sc, u2, u3, g4]
      have htk : x.take e = cut sep (L.sc b.stream) := by
        rw [f2, g3]; unfold cut; rw [hfull]
        simp only; rw [List.take_append_of_le_length (by omega)]
      refine ⟨_, _, rfl, hscne, rfl, hr, by rw [u2]; exact g2, ?_, ?_, ?_,
        by rw [u5, g6], Or.inl ⟨rfl, htk, ?_⟩⟩
      · simp only [u6, u3, g4, List.append_nil]
        split
        · rename_i h; rw [h]; exact hS0
        · rename_i h; exact (hpush h).2
      · have h1 : (x.take e).length ≤ i := by
          rw [f2]; exact (stripEol_length_le _).trans (by simp)
        have h2 : s2.size = (x.drop (i + sep.length)).length + Producer.size s1.producer := by
          simp [LazyStream.size, u2, u3, g4]
        have h3 : s1.size = Producer.size s1.producer := by simp [LazyStream.size, g4]
        rw [h3] at g5
        simp only [h2, List.length_drop]
        omega
      · have h2 : s2.size = (x.drop (i + sep.length)).length + Producer.size s1.producer := by
          simp [LazyStream.size, u2, u3, g4]
        have h3 : s1.size = Producer.size s1.producer := by simp [LazyStream.size, g4]
        have h4 := List.length_pos_iff.2 hx
        rw [h3] at g5
        simp only [h2, List.length_drop]
        omega
      · simp only [hsc2]
        rw [g3]; unfold after; rw [hfull]
        simp only; rw [List.drop_append_of_le_length hbd]
    | none =>
      rw [findBoundary_none hf]
      simp only
      by_cases hle : x.length ≤ b.rollback
      · rw [if_pos hle]
        have hst : st = true := by
          cases st with
          | true => rfl
          | false => have := g8 rfl; omega
        subst hst
        have hrest := (g7 rfl).1
        have hx' : L.sc b.stream = x := by rw [g3, hrest]; simp
        refine ⟨_, _, rfl, hscne, rfl, hr, g2, ?_, g5, ?_, g6, Or.inl ⟨rfl, ?_, ?_⟩⟩
        · simp only [g4]; exact hS0
        · have h4 := List.length_pos_iff.2 hx
          simp only; omega
        · rw [hx']; simp [cut, hf]
        · rw [hx']; simp [after, hf, hrest]
      · rw [if_neg hle]
        have hst : st = false := by
          cases st with
          | false => rfl
          | true => have := (g7 rfl).2.1; omega
        subst hst
        have hlen : (x.drop (x.length - b.rollback)).length = b.rollback := by simp; omega
        have hpush := hW.pushRoll (R := b.rollback) (by omega) (by omega)
        have hne : x.drop (x.length - b.rollback) ≠ [] := by
          intro h; have := congrArg List.length h; simp at this; omega
        obtain ⟨s2, u1, u2, u3, u4, u5, u6⟩ := LazyStream.unget_ok s1
          (x.drop (x.length - b.rollback)) (fun _ => by rw [hlen]; exact hpush.1)
        rw [u1]
        simp only
        have hsc2 : L.sc s2 = x.drop (x.length - b.rollback) ++ L.sc s1 := by
          simp [Lawful.sc, u2, u3, g4]
        have hcr := cut_roll (rest := L.sc s1) hr hf (by omega)
        refine ⟨_, _, rfl, hscne, rfl, hr, by rw [u2]; exact g2, ?_, ?_, ?_, by rw [u5, g6],
          Or.inr ⟨rfl, ?_, ?_, ?_, ?_⟩⟩
        · simp only [u6, u3, g4, List.append_nil, hlen, hne, if_false]
          exact hpush.2
        · have h2 : s2.size = b.rollback + Producer.size s1.producer := by
            simp only [LazyStream.size, u2, u3, g4, List.append_nil, hlen]
          have h3 : s1.size = Producer.size s1.producer := by simp [LazyStream.size, g4]
          rw [h3] at g5
          simp only [h2, List.length_take]
          omega
        · have h2 : s2.size = b.rollback + Producer.size s1.producer := by
            simp only [LazyStream.size, u2, u3, g4, List.append_nil, hlen]
          have h3 : s1.size = Producer.size s1.producer := by simp [LazyStream.size, g4]
          rw [h3] at g5
          simp only [h2]
          omega
        · intro h; have := congrArg List.length h; simp at this; omega
        · simp only [hsc2]; rw [g3, ← List.append_assoc, List.take_append_drop]
        · simp only [hsc2]; rw [g3]; exact hcr.1
        · simp only [hsc2]; rw [g3]; exact hcr.2

/-- `BoundaryIter` as a lawful producer.  `D` is the content of the body stream when the
part began; `weak` says whether the invariant covers the state right after construction.
The strict version (`weak = false`) also records that something was consumed; `N` bounds the
fuel measure of the body stream. -/
def BoundaryIter.lawful (ne : NonEmptyChunks σ) {sep : Bytes} (hs : SepOK sep) (D : Bytes)
    (N : Nat) (weak : Bool) : Lawful (BoundaryIter σ) where
  Inv b := b.boundary = sep ∧ b.rollback = sep.length + 6 ∧ L.Inv b.stream.producer ∧
    (if b.done = false ∧ weak = true then Weak b.stream.history b.stream.leftover.length
      else Strong b.stream.history b.stream.leftover.length) ∧
    (if b.done = true then L.sc b.stream = after sep D
      else ∃ y, (weak = false → y ≠ []) ∧ D = y ++ L.sc b.stream ∧
        cut sep D = y ++ cut sep (L.sc b.stream) ∧
        after sep D = after sep (L.sc b.stream)) ∧
    (if weak = true then b.stream.size ≤ N else b.stream.size < N) ∧ b.stream.length = none
  End b := b.done = true
  content b := if b.done = true then [] else cut sep (L.sc b.stream)
  next_spec := by
    rintro b ⟨h1, h2, h3, h4, h5, hN, hlen⟩
    cases hd : b.done with
    | true =>
      left
      refine ⟨b, by simp [Producer.next, next, hd], ⟨h1, h2, h3, h4, h5, hN, hlen⟩, hd, by simp, by simp [hd],
        le_refl _⟩
    | false =>
      have hW : Weak b.stream.history b.stream.leftover.length := by
        split at h4
        · exact h4
        · exact h4.weak
      simp only [hd, Bool.false_eq_true, if_false] at h5
      obtain ⟨y, hy0, hy1, hy3, hy2⟩ := h5
      have hsz : Producer.size b = 1 + b.stream.size := by simp [Producer.size, hd]
      rcases next_core L ne hs b h1 h2 hd h3 hW with
        ⟨b', a1, a2, a3, a4, a5, a6, a7, a8, a9, al⟩ | ⟨c, b', a1, a2, a4, a5, a6, a7, a8, a8', al, a9⟩
      · left
        refine ⟨b', a1, ⟨a4, a5, a6, ?_, ?_, ?_, by rw [al, hlen]⟩, a3, ?_, ?_, ?_⟩
        · rw [if_neg (by simp [a3])]; exact a8
        · rw [if_pos a3, a7, hy2, a2]
          have : sep ≠ [] := by intro h; have := hs.len; simp [h] at this
          simp [after, Py.find_nil_of_ne this]
        · split at hN
          · rw [if_pos (by assumption)]; omega
          · rw [if_neg (by assumption)]; omega
        · have : sep ≠ [] := by intro h; have := hs.len; simp [h] at this
          simp [a2, cut, Py.find_nil_of_ne this]
        · simp [a3]
        · simp [Producer.size, a3]
      · right
        have hS : (if b'.done = false ∧ weak = true then Weak b'.stream.history b'.stream.leftover.length
            else Strong b'.stream.history b'.stream.leftover.length) := by
          split
          · exact a7.weak
          · exact a7
        have hN' : (if weak = true then b'.stream.size ≤ N else b'.stream.size < N) := by
          split at hN
          · rw [if_pos (by assumption)]; omega
          · rw [if_neg (by assumption)]; omega
        rcases a9 with ⟨d1, d2, d3⟩ | ⟨d1, d2, d3, d4, d5⟩
        · refine ⟨c, b', a1, ⟨a4, a5, a6, hS, ?_, hN', by rw [al, hlen]⟩, ?_, ?_, ?_⟩
          · rw [if_pos d1, d3, hy2]
          · simp [d1, d2]
          · rw [hsz]; simp [Producer.size, d1]
          · rw [hsz]; simp [Producer.size, d1]; omega
        · refine ⟨c, b', a1, ⟨a4, a5, a6, hS, ?_, hN', by rw [al, hlen]⟩, ?_, ?_, ?_⟩
          · rw [if_neg (by simp [d1])]
            exact ⟨y ++ c, fun _ => by simp [d2], by rw [hy1, d3]; simp, by rw [hy3, d4]; simp,
              by rw [hy2, d5]⟩
          · simp [d1, d4]
          · have := List.length_pos_iff.2 d2
            rw [hsz]; simp [Producer.size, d1]; omega
          · rw [hsz]; simp [Producer.size, d1]; omega

/-- Reading on a stream without leftover leaves at most one history entry. -/
theorem LazyStream.readLoop_hist : ∀ (fuel rem : Nat) (acc : Bytes) (s : LazyStream σ),
    s.leftover = [] → s.history.length ≤ 1 →
    (readLoop fuel rem acc s).2.history.length ≤ 1 := by
  intro fuel
  induction fuel with
  | zero => intro rem acc s _ h; unfold readLoop; split <;> exact h
  | succ fuel ih =>
    intro rem acc s hl hh
    unfold readLoop
    by_cases hr : rem = 0
    · rw [if_pos hr]; exact hh
    · rw [if_neg hr]
      unfold next
      rw [if_neg (by simp [hl])]
      rcases Producer.next s.producer with ⟨(er | (_ | c)), p⟩
      · exact hh
      · exact hh
      · simp only
        by_cases hd : c.drop rem = []
        · rw [hd]
          simp only [unget, if_true]
          exact ih _ _ _ hl (by simp)
        · rw [unget, if_neg hd]
          simp only
          split
          · rename_i h1; split at h1 <;> (injection h1 with _ h2; subst h2; simp)
          · rename_i s2 h1
            split at h1
            · simp at h1
            · injection h1 with _ h2
              have hrem : rem - (c.take rem).length = 0 := by
                have := List.length_pos_iff.2 hd
                simp at this ⊢; omega
              rw [hrem]
              have : readLoop fuel 0 (acc ++ c.take rem) s2 = (.ok (acc ++ c.take rem), s2) := by
                cases fuel <;> simp [readLoop]
              rw [this, ← h2]; simp

theorem LazyStream.read_hist (n : Nat) (s : LazyStream σ) (hl : s.leftover = [])
    (hh : s.history.length ≤ 1) : (s.read (some n)).2.history.length ≤ 1 := by
  have e : s.read (some n) = readLoop (s.size + 1) n [] s := by
    simp only [read]
    rw [if_neg (by omega)]; simp
  rw [e]; exact readLoop_hist _ _ _ _ hl hh

/-- The next part: nothing when the body is used up, otherwise a fresh stream satisfying
the contract right after construction. -/
theorem nextPart_spec (ne : NonEmptyChunks σ) {sep : Bytes} (hs : SepOK sep) (s : LazyStream σ)
    (hI : L.Inv s.producer) (hH : Strong s.history s.leftover.length) (hl : s.length = none) :
    (∃ s', nextPart s sep = (.ok none, s') ∧ L.sc s = [] ∧ L.sc s' = [] ∧ L.Inv s'.producer ∧
      L.End s'.producer ∧ s'.length = none) ∨
    (∃ b, nextPart s sep = (.ok (some (LazyStream.mk' b)), b.stream) ∧ L.sc s ≠ [] ∧
      (BoundaryIter.lawful L ne hs (L.sc s) s.size true).Inv b ∧ b.done = false ∧
      L.sc b.stream = L.sc s) := by
  unfold nextPart
  rcases BoundaryIter.create_spec L ne s sep hI hH with
    ⟨s', e, a1, a2, a3, a4, a5, a6, a7⟩ | ⟨s', e, a1, a2, a3, a4, a5, a6, a7⟩
  · left; rw [e]; exact ⟨s', rfl, a1, a2, a3, a4, by rw [a7, hl]⟩
  · right; rw [e]
    refine ⟨_, rfl, a1, ⟨rfl, rfl, a3, by simpa using a4, ?_, ?_, by rw [a7, hl]⟩, rfl, a2⟩
    · rw [if_neg (by simp)]
      exact ⟨[], by simp, by simp [a2], by simp [a2], by simp [a2]⟩
    · simpa using a5

/-- First step of a part that has data. -/
theorem BoundaryIter.firstStep (ne : NonEmptyChunks σ) {sep : Bytes} (hs : SepOK sep) (D : Bytes)
    (N : Nat) (hD : D ≠ []) (b : BoundaryIter σ)
    (hb : (BoundaryIter.lawful L ne hs D N true).Inv b)
    (hd : b.done = false) (hDb : L.sc b.stream = D) :
    ∃ c b', Producer.next b = (.ok (some c), b') ∧
      (BoundaryIter.lawful L ne hs D N false).Inv b' ∧
      cut sep D = c ++ (BoundaryIter.lawful L ne hs D N false).content b' ∧
      Producer.size b' < Producer.size b ∧ Producer.size b' + c.length ≤ Producer.size b := by
  obtain ⟨h1, h2, h3, h4, h5, hN, hlen⟩ := hb
  simp only [hd, true_and, if_true] at h4 hN
  have hsz : Producer.size b = 1 + b.stream.size := by simp [Producer.size, hd]
  rcases next_core L ne hs b h1 h2 hd h3 h4 with
    ⟨b', a1, a2, a3, a4, a5, a6, a7, a8, a9, al⟩ | ⟨c, b', a1, a2, a4, a5, a6, a7, a8, a8', al, a9⟩
  · rw [hDb] at a2; exact absurd a2 hD
  · rw [hDb] at a9
    refine ⟨c, b', a1, ⟨a4, a5, a6, by simpa using a7, ?_, by simp; omega, by rw [al, hlen]⟩, ?_, ?_, ?_⟩
    · rcases a9 with ⟨d1, d2, d3⟩ | ⟨d1, d2, d3, d4, d5⟩
      · rw [if_pos d1, d3]
      · rw [if_neg (by simp [d1])]; exact ⟨c, fun _ => d2, d3, d4, d5⟩
    · rcases a9 with ⟨d1, d2, d3⟩ | ⟨d1, d2, d3, d4, d5⟩
      · simp [lawful, d1, d2]
      · simp [lawful, d1, d4]
    · rw [hsz]; simp only [Producer.size]; split <;> omega
    · rw [hsz]; simp only [Producer.size]; split <;> omega

/-- The first read on a part: it really consumes something, so the strict contract holds
afterwards. -/
theorem firstRead_spec (ne : NonEmptyChunks σ) {sep : Bytes} (hs : SepOK sep) (D : Bytes)
    (N : Nat) (hD : D ≠ []) (b : BoundaryIter σ)
    (hb : (BoundaryIter.lawful L ne hs D N true).Inv b)
    (hd : b.done = false) (hDb : L.sc b.stream = D) (n : Nat) (hn : 1 ≤ n) :
    ∃ s', (LazyStream.mk' b).read (some n) = (.ok ((cut sep D).take n), s') ∧
      (BoundaryIter.lawful L ne hs D N false).Inv s'.producer ∧
      (BoundaryIter.lawful L ne hs D N false).sc s' = (cut sep D).drop n ∧
      s'.history.length ≤ 1 ∧ s'.length = none ∧
      ((cut sep D).length < n → s'.producer.done = true) := by
  have hh := LazyStream.read_hist n (LazyStream.mk' b) rfl (by simp [LazyStream.mk'])
  have e : (LazyStream.mk' b).read (some n) =
      LazyStream.readLoop ((LazyStream.mk' b).size + 1) n [] (LazyStream.mk' b) := by
    simp only [LazyStream.read]
    rw [if_neg (by omega)]; simp
  rw [e] at hh ⊢
  obtain ⟨c, b', a1, a2, a3, a4, a5⟩ := BoundaryIter.firstStep L ne hs D N hD b hb hd hDb
  unfold LazyStream.readLoop at hh ⊢
  rw [if_neg (by omega)] at hh ⊢
  have e1 : (LazyStream.mk' b).next = (.ok (some c),
      { producer := b', position := c.length : LazyStream (BoundaryIter σ) }) := by
    simp [LazyStream.next, LazyStream.mk', a1]
  rw [e1] at hh ⊢
  simp only at hh ⊢
  obtain ⟨s2, u1, u2, u3, u4, u5, u6⟩ := LazyStream.unget_ok
    ({ producer := b', position := c.length : LazyStream (BoundaryIter σ) }) (c.drop n)
    (by intro _; simp)
  rw [u1] at hh ⊢
  simp only at hh ⊢
  generalize hL : BoundaryIter.lawful L ne hs D N false = L2 at *
  have hsz : (LazyStream.mk' b).size = Producer.size b := by simp [LazyStream.size, LazyStream.mk']
  have hsc : L2.sc s2 = c.drop n ++ L2.content b' := by simp [Lawful.sc, u2, u3]
  have hs2 : s2.size < (LazyStream.mk' b).size := by
    rw [hsz]; simp only [LazyStream.size, u2, u3, List.append_nil, List.length_drop]
    by_cases hc : c = []
    · simp [hc]; omega
    · have := List.length_pos_iff.2 hc
      omega
  rcases LazyStream.readLoop_spec L2 39 (le_refl _) (LazyStream.mk' b).size (n - (c.take n).length)
    ([] ++ c.take n) s2 (by rw [u2]; exact a2) hs2 with ⟨s', f1, f2, f3, f4, f5, f6, f7, f8⟩ | ⟨s', f1, f2⟩
  · rw [f1] at hh ⊢
    have htake : c.take n ++ (L2.sc s2).take (n - (c.take n).length) = (cut sep D).take n := by
      rw [a3, hsc, List.length_take]
      rcases Nat.le_total n c.length with h | h
      · simp [Nat.min_eq_left h, List.take_append_of_le_length h]
      · simp [Nat.min_eq_right h, List.drop_eq_nil_of_le h, List.take_append]
    have hdrop : (L2.sc s2).drop (n - (c.take n).length) = (cut sep D).drop n := by
      rw [a3, hsc, List.length_take]
      rcases Nat.le_total n c.length with h | h
      · simp [Nat.min_eq_left h, List.drop_append_of_le_length h]
      · simp [Nat.min_eq_right h, List.drop_eq_nil_of_le h, List.drop_append]
    refine ⟨s', by rw [List.nil_append, htake], f2, by rw [f3, hdrop], hh, by rw [f5, u5], ?_⟩
    intro hlt
    have : L2.End s'.producer := by
      apply f7
      rw [hsc]
      rw [a3] at hlt
      simp at hlt ⊢; omega
    rw [← hL] at this; exact this
  · exfalso
    apply f2
    apply HistOK.of_length
    rw [u6]; split <;> simp

/-- Progress: what is left of the body after some of a part has been consumed. -/
theorem lawful_progress (ne : NonEmptyChunks σ) {sep : Bytes} (hs : SepOK sep) (D : Bytes)
    (N : Nat) (hD : D ≠ []) (b : BoundaryIter σ)
    (h : (BoundaryIter.lawful L ne hs D N false).Inv b) :
    L.Inv b.stream.producer ∧ Strong b.stream.history b.stream.leftover.length ∧
      b.stream.size < N ∧ (L.sc b.stream).length < D.length ∧ L.sc b.stream <:+ D ∧
      b.stream.length = none ∧ (b.done = true → L.sc b.stream = after sep D) := by
  obtain ⟨h1, h2, h3, h4, h5, h6, h7⟩ := h
  refine ⟨h3, by simpa using h4, by simpa using h6, ?_⟩
  split at h5
  · rename_i hd
    rw [h5]
    have hsl := hs.len
    have hDl := List.length_pos_iff.2 hD
    refine ⟨?_, ?_, h7, fun _ => rfl⟩
    · unfold after; split
      · simpa using hDl
      · simp; omega
    · unfold after; split
      · exact List.nil_suffix
      · exact List.drop_suffix _ _
  · rename_i hd
    obtain ⟨y, hy, e, _⟩ := h5
    have := List.length_pos_iff.2 (hy rfl)
    refine ⟨?_, ?_, h7, fun h => absurd h hd⟩
    · conv_rhs => rw [e]
      simp; omega
    · conv_rhs => rw [e]
      exact List.suffix_append _ _

end

theorem ChunkIter.nonEmpty {σ : Type} [Producer σ] : NonEmptyChunks (ChunkIter σ) :=
  fun p p' c h => ChunkIter.next_ne_nil p p' c h

end Verif
