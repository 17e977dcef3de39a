import Verif.Model.FileProxy
import Verif.Props.Exact
/-!
# C102-C105: what a wrapped file says about itself, temporary files on Windows, texts, `from_dict`
-/

namespace Verif

namespace Spec

/-- The object at the bottom of all wrappers. -/
def bottom : Wrapped → Wrapped
  | .wrap _ _ x => bottom x
  | x => x

/-- Nothing can be read from, written to or moved in this file. -/
def IsClosed (x : Wrapped) : Prop :=
  bottom x = .nothing ∨ (∃ r w s, bottom x = .io true r w s) ∨ ∃ m p, bottom x = .file m true p

/-- Reading works: the file is open, and the mode of a Python 2 file begins with `r` or has a `+`. -/
def CanRead (x : Wrapped) : Prop :=
  (∃ w s, bottom x = .io false true w s) ∨ ∃ m p, bottom x = .file m false p ∧ (m.head? = some 114 ∨ 43 ∈ m)

/-- Writing works: the file is open, and the mode of a Python 2 file begins with `w` or `a` or has a `+`. -/
def CanWrite (x : Wrapped) : Prop :=
  (∃ r s, bottom x = .io false r true s) ∨
    ∃ m p, bottom x = .file m false p ∧ (m.head? = some 119 ∨ m.head? = some 97 ∨ 43 ∈ m)

/-- Seeking works. -/
def CanSeek (x : Wrapped) : Prop :=
  (∃ r w, bottom x = .io false r w true) ∨ ∃ m, bottom x = .file m false false

/-- Every `File` among the wrappers knows its size, and it is not zero. -/
def NonEmpty : Wrapped → Prop
  | .wrap s _ x => (∃ n : Int, 0 < n ∧ s = .int n) ∧ NonEmpty x
  | _ => True

/-- The mode says whether the file can be read or written: it begins with `r`, `w` or `a`, and what follows are
the letters `b`, `U` and `+`. -/
def GoodMode (m : Bytes) : Prop :=
  ∃ c t, m = c :: t ∧ (c = 114 ∨ c = 119 ∨ c = 97) ∧ ∀ d ∈ t, d = 98 ∨ d = 85 ∨ d = 43

end Spec

open Spec

private theorem truth_full {x : Wrapped} (h : NonEmpty x) : x.truth = .ok (decide (x ≠ .nothing)) := by
  cases x with
  | nothing => rfl
  | io c r w s => simp [Wrapped.truth]
  | file m c p => simp [Wrapped.truth]
  | wrap s m y =>
    obtain ⟨⟨n, hn, rfl⟩, -⟩ := h
    have h1 : ¬ n < 0 := by omega
    have h2 : n ≠ 0 := by omega
    simp [Wrapped.truth, h1, h2]

private theorem closed_full (s : SizeAttr) (m : Option Bytes) {x : Wrapped} (h : NonEmpty x) :
    ∃ c, (Wrapped.wrap s m x).closed = .ok c ∧ (c = true ↔ IsClosed (.wrap s m x)) := by
  induction x generalizing s m with
  | nothing => exact ⟨true, rfl, by simp [IsClosed, bottom]⟩
  | io c r w k => exact ⟨c, by simp [Wrapped.closed, Wrapped.truth], by simp [IsClosed, bottom]⟩
  | file md c p => exact ⟨c, by simp [Wrapped.closed, Wrapped.truth], by simp [IsClosed, bottom]⟩
  | wrap s' m' y ih =>
    obtain ⟨c, hc, hi⟩ := ih s' m' h.2
    refine ⟨c, ?_, ?_⟩
    · rw [Wrapped.closed, truth_full h]
      simpa using hc
    · simpa [IsClosed, bottom] using hi

/-- C102 (partial): if no wrapper is the size zero or unknown, `closed` of a `File` tells whether the file at the
bottom is closed. -/
theorem C102_closed_partial (s : SizeAttr) (m : Option Bytes) {x : Wrapped} (h : NonEmpty x) :
    ∃ c, (Wrapped.wrap s m x).closed = .ok c ∧ (c = true ↔ IsClosed (.wrap s m x)) :=
  closed_full s m h

/-- An uploaded file in a `File`, around an open file. -/
example : NonEmpty (.wrap (.int 3) none (.file b!"w+b" false false)) ∧
    (Wrapped.mk .method (.mk (.int 3) (.file b!"w+b" false false))).closed = .ok false := by
  exact ⟨⟨⟨3, by decide, rfl⟩, trivial⟩, rfl⟩

private theorem readable_closed {s : SizeAttr} {m : Option Bytes} {x : Wrapped}
    (h : (Wrapped.wrap s m x).closed = .ok true) : (Wrapped.wrap s m x).readable = .ok false := by
  cases x <;> simp only [Wrapped.readable, h]

private theorem readable_open {s t : SizeAttr} {m k : Option Bytes} {x : Wrapped}
    (h : (Wrapped.wrap s m (.wrap t k x)).closed = .ok false) :
    (Wrapped.wrap s m (.wrap t k x)).readable = (Wrapped.wrap t k x).readable := by
  conv => lhs; unfold Wrapped.readable
  simp only [h]

private theorem writable_closed {s : SizeAttr} {m : Option Bytes} {x : Wrapped}
    (h : (Wrapped.wrap s m x).closed = .ok true) : (Wrapped.wrap s m x).writable = .ok false := by
  cases x <;> simp only [Wrapped.writable, h]

private theorem writable_open {s t : SizeAttr} {m k : Option Bytes} {x : Wrapped}
    (h : (Wrapped.wrap s m (.wrap t k x)).closed = .ok false) :
    (Wrapped.wrap s m (.wrap t k x)).writable = (Wrapped.wrap t k x).writable := by
  conv => lhs; unfold Wrapped.writable
  simp only [h]

private theorem seekable_closed {s : SizeAttr} {m : Option Bytes} {x : Wrapped}
    (h : (Wrapped.wrap s m x).closed = .ok true) : (Wrapped.wrap s m x).seekable = .ok false := by
  cases x <;> simp only [Wrapped.seekable, h]

private theorem seekable_open {s t : SizeAttr} {m k : Option Bytes} {x : Wrapped}
    (h : (Wrapped.wrap s m (.wrap t k x)).closed = .ok false) :
    (Wrapped.wrap s m (.wrap t k x)).seekable = (Wrapped.wrap t k x).seekable := by
  conv => lhs; unfold Wrapped.seekable
  simp only [h]

/-- What `readable` says, exactly. -/
private theorem readable_full (s : SizeAttr) (m : Option Bytes) {x : Wrapped} (h : NonEmpty x) :
    ∃ c, (Wrapped.wrap s m x).readable = .ok c ∧ (c = true ↔
      (∃ w k, bottom x = .io false true w k) ∨ ∃ md p, bottom x = .file md false p) := by
  induction x generalizing s m with
  | nothing => exact ⟨false, rfl, by simp [bottom]⟩
  | io c r w k => cases c <;> simp [Wrapped.readable, Wrapped.closed, Wrapped.truth, bottom]
  | file md c p => cases c <;> simp [Wrapped.readable, Wrapped.closed, Wrapped.truth, bottom]
  | wrap s' m' y ih =>
    obtain ⟨c, hc, hi⟩ := ih s' m' h.2
    obtain ⟨d, hd, -⟩ := closed_full s' m' h.2
    have hd' : (Wrapped.wrap s m (.wrap s' m' y)).closed = .ok d := by
      rw [Wrapped.closed, truth_full h]; simpa using hd
    refine ⟨c, ?_, by simpa [bottom] using hi⟩
    cases d with
    | false => rw [readable_open hd', hc]
    | true => rw [readable_closed hd', ← hc, readable_closed hd]

private theorem seekable_full (s : SizeAttr) (m : Option Bytes) {x : Wrapped} (h : NonEmpty x) :
    ∃ c, (Wrapped.wrap s m x).seekable = .ok c ∧ (c = true ↔
      (∃ r w, bottom x = .io false r w true) ∨ ∃ md p, bottom x = .file md false p) := by
  induction x generalizing s m with
  | nothing => exact ⟨false, rfl, by simp [bottom]⟩
  | io c r w k => cases c <;> simp [Wrapped.seekable, Wrapped.closed, Wrapped.truth, bottom]
  | file md c p => cases c <;> simp [Wrapped.seekable, Wrapped.closed, Wrapped.truth, bottom]
  | wrap s' m' y ih =>
    obtain ⟨c, hc, hi⟩ := ih s' m' h.2
    obtain ⟨d, hd, -⟩ := closed_full s' m' h.2
    have hd' : (Wrapped.wrap s m (.wrap s' m' y)).closed = .ok d := by
      rw [Wrapped.closed, truth_full h]; simpa using hd
    refine ⟨c, ?_, by simpa [bottom] using hi⟩
    cases d with
    | false => rw [seekable_open hd', hc]
    | true => rw [seekable_closed hd', ← hc, seekable_closed hd]

private theorem writable_full (s : SizeAttr) (m : Option Bytes) {x : Wrapped} (h : NonEmpty x) :
    ∃ c, (Wrapped.wrap s m x).writable = .ok c ∧ (c = true ↔
      (∃ r k, bottom x = .io false r true k) ∨ ∃ md p, bottom x = .file md false p ∧ 119 ∈ md) := by
  induction x generalizing s m with
  | nothing => exact ⟨false, rfl, by simp [bottom]⟩
  | io c r w k => cases c <;> simp [Wrapped.writable, Wrapped.closed, Wrapped.truth, bottom]
  | file md c p => cases c <;> simp [Wrapped.writable, Wrapped.closed, Wrapped.truth, bottom]
  | wrap s' m' y ih =>
    obtain ⟨c, hc, hi⟩ := ih s' m' h.2
    obtain ⟨d, hd, -⟩ := closed_full s' m' h.2
    have hd' : (Wrapped.wrap s m (.wrap s' m' y)).closed = .ok d := by
      rw [Wrapped.closed, truth_full h]; simpa using hd
    refine ⟨c, ?_, by simpa [bottom] using hi⟩
    cases d with
    | false => rw [writable_open hd', hc]
    | true => rw [writable_closed hd', ← hc, writable_closed hd]

/-- C102 (partial): `readable()` is right for the objects of `io` and for Python 2 files that can be read when
open. -/
theorem C102_readable_partial (s : SizeAttr) (m : Option Bytes) {x : Wrapped} (h : NonEmpty x)
    (hm : ∀ md c p, bottom x = .file md c p → md.head? = some 114 ∨ 43 ∈ md) :
    ∃ c, (Wrapped.wrap s m x).readable = .ok c ∧ (c = true ↔ CanRead (.wrap s m x)) := by
  obtain ⟨c, hc, hi⟩ := readable_full s m h
  refine ⟨c, hc, hi.trans ?_⟩
  simp only [CanRead, bottom]
  constructor
  · rintro (h | ⟨md, p, h⟩)
    · exact .inl h
    · exact .inr ⟨md, p, h, hm md false p h⟩
  · rintro (h | ⟨md, p, h, -⟩)
    · exact .inl h
    · exact .inr ⟨md, p, h⟩

/-- C102 (partial): `writable()` is right for the objects of `io` and for Python 2 files whose mode begins with `w`,
or with `r` without a `+`. -/
theorem C102_writable_partial (s : SizeAttr) (m : Option Bytes) {x : Wrapped} (h : NonEmpty x)
    (hm : ∀ md c p, bottom x = .file md c p → GoodMode md ∧ md.head? ≠ some 97 ∧
      (md.head? = some 114 → 43 ∉ md)) :
    ∃ c, (Wrapped.wrap s m x).writable = .ok c ∧ (c = true ↔ CanWrite (.wrap s m x)) := by
  obtain ⟨c, hc, hi⟩ := writable_full s m h
  refine ⟨c, hc, hi.trans ?_⟩
  simp only [CanWrite, bottom]
  have key : ∀ md p, bottom x = .file md false p →
      (119 ∈ md ↔ (md.head? = some 119 ∨ md.head? = some 97 ∨ 43 ∈ md)) := by
    intro md p hx
    obtain ⟨⟨a, t, rfl, ha, ht⟩, h97, h114⟩ := hm md false p hx
    have h119 : (119 : UInt8) ∉ t := by
      intro hmem
      have := ht _ hmem
      revert this; decide
    rcases ha with rfl | rfl | rfl
    · have := h114 rfl
      simp only [List.mem_cons, h119, or_false, List.head?_cons] at this ⊢
      constructor
      · intro h; exact absurd h (by decide)
      · rintro (h | h | h)
        · exact absurd h (by decide)
        · exact absurd h (by decide)
        · exact absurd h this
    · simp
    · exact absurd rfl h97
  constructor
  · rintro (h | ⟨md, p, h, hw⟩)
    · exact .inl h
    · exact .inr ⟨md, p, h, (key md p h).1 hw⟩
  · rintro (h | ⟨md, p, h, hw⟩)
    · exact .inl h
    · exact .inr ⟨md, p, h, (key md p h).2 hw⟩

/-- C102 (partial): `seekable()` is right unless the file is a pipe. -/
theorem C102_seekable_partial (s : SizeAttr) (m : Option Bytes) {x : Wrapped} (h : NonEmpty x)
    (hm : ∀ md c p, bottom x = .file md c p → p = false) :
    ∃ c, (Wrapped.wrap s m x).seekable = .ok c ∧ (c = true ↔ CanSeek (.wrap s m x)) := by
  obtain ⟨c, hc, hi⟩ := seekable_full s m h
  refine ⟨c, hc, hi.trans ?_⟩
  simp only [CanSeek, bottom]
  constructor
  · rintro (h | ⟨md, p, h⟩)
    · exact .inl h
    · obtain rfl := hm md false p h
      exact .inr ⟨md, h⟩
  · rintro (h | ⟨md, h⟩)
    · exact .inl h
    · exact .inr ⟨md, _, h⟩

/-- The file of a `TemporaryUploadedFile` (mode `w+b`, on disk) meets the hypotheses of all four, and so does one
for reading with regard to `writable`. -/
example : GoodMode b!"w+b" ∧ b!"w+b".head? ≠ some 97 ∧ (b!"w+b".head? = some 114 → 43 ∉ b!"w+b") ∧
    43 ∈ b!"w+b" ∧ GoodMode b!"rb" ∧ b!"rb".head? = some 114 ∧ 43 ∉ b!"rb" ∧
    (Wrapped.mk (.int 5) (.file b!"w+b" false false)).writable = .ok true ∧
    (Wrapped.mk (.int 5) (.file b!"rb" false false)).writable = .ok false := by
  refine ⟨⟨119, b!"+b", rfl, by decide, by decide⟩, by decide, by decide, by decide,
    ⟨114, b!"b", rfl, by decide, by decide⟩, by decide, by decide, rfl, rfl⟩

namespace Spec

/-- The `size` attributes of the `File`s in a chain, from the outermost to the innermost. -/
def sizes : Wrapped → List SizeAttr
  | .wrap s _ x => s :: sizes x
  | _ => []

end Spec

private theorem closed_inner (pre : List SizeAttr) (t : SizeAttr) (rest : List SizeAttr)
    (hpre : ∀ p ∈ pre, ∃ n : Int, 0 < n ∧ p = .int n) (x : Wrapped) (s : SizeAttr) (m : Option Bytes)
    (hx : sizes x = pre ++ t :: rest) :
    (t = .int 0 → (Wrapped.wrap s m x).closed = .ok true) ∧
    (∀ n : Int, n < 0 → t = .int n → (Wrapped.wrap s m x).closed = .error .valueError) ∧
    (t = .none ∨ t = .method → (Wrapped.wrap s m x).closed = .error .typeError) := by
  induction pre generalizing x s m with
  | nil =>
    cases x with
    | wrap s' m' y =>
      obtain ⟨rfl, -⟩ : s' = t ∧ sizes y = rest := by simpa [sizes] using hx
      refine ⟨fun h => ?_, fun n hn h => ?_, fun h => ?_⟩
      · subst h; simp [Wrapped.closed, Wrapped.truth]
      · subst h; simp [Wrapped.closed, Wrapped.truth, hn]
      · rcases h with h | h <;> subst h <;> simp [Wrapped.closed, Wrapped.truth]
    | _ => simp [sizes] at hx
  | cons p pre ih =>
    cases x with
    | wrap s' m' y =>
      obtain ⟨rfl, hy⟩ : s' = p ∧ sizes y = pre ++ t :: rest := by simpa [sizes] using hx
      obtain ⟨k, hk, rfl⟩ := hpre s' (by simp)
      have ht : (Wrapped.wrap (.int k) m' y).truth = .ok true := by
        have h1 : ¬ k < 0 := by omega
        have h2 : k ≠ 0 := by omega
        simp [Wrapped.truth, h1, h2]
      have hc : (Wrapped.wrap s m (.wrap (.int k) m' y)).closed = (Wrapped.wrap (.int k) m' y).closed := by
        rw [Wrapped.closed, ht]
      rw [hc]
      exact ih (fun p hp => hpre p (by simp [hp])) y (.int k) m' hy
    | _ => simp [sizes] at hx

/-- **C102, what is wrong with wrapped `File`s.**  The first `File` inside the chain whose size is not a positive
number decides, whatever is at the bottom: with the size `0` the whole chain counts as closed and as not readable,
writable or seekable; with a negative size all four raise `ValueError`, and without a number `TypeError`.  Together
with the theorems above, which treat the chains without such a `File`, this is every case. -/
theorem C102_inner (s : SizeAttr) (m : Option Bytes) (x : Wrapped) (pre : List SizeAttr) (t : SizeAttr)
    (rest : List SizeAttr) (hx : sizes x = pre ++ t :: rest) (hpre : ∀ p ∈ pre, ∃ n : Int, 0 < n ∧ p = .int n) :
    let f := Wrapped.wrap s m x
    (t = .int 0 → f.closed = .ok true ∧ f.readable = .ok false ∧ f.writable = .ok false ∧ f.seekable = .ok false) ∧
    (∀ n : Int, n < 0 → t = .int n → f.closed = .error .valueError ∧ f.readable = .error .valueError ∧
      f.writable = .error .valueError ∧ f.seekable = .error .valueError) ∧
    (t = .none ∨ t = .method → f.closed = .error .typeError ∧ f.readable = .error .typeError ∧
      f.writable = .error .typeError ∧ f.seekable = .error .typeError) := by
  have h := closed_inner pre t rest hpre x s m hx
  refine ⟨fun h0 => ?_, fun n hn h0 => ?_, fun h0 => ?_⟩
  · have hc := h.1 h0
    exact ⟨hc, readable_closed hc, writable_closed hc, seekable_closed hc⟩
  · have hc := h.2.1 n hn h0
    refine ⟨hc, ?_, ?_, ?_⟩
    · cases x <;> simp only [Wrapped.readable, hc]
    · cases x <;> simp only [Wrapped.writable, hc]
    · cases x <;> simp only [Wrapped.seekable, hc]
  · have hc := h.2.2 h0
    refine ⟨hc, ?_, ?_, ?_⟩
    · cases x <;> simp only [Wrapped.readable, hc]
    · cases x <;> simp only [Wrapped.writable, hc]
    · cases x <;> simp only [Wrapped.seekable, hc]

/-- Any number of `File`s put around an object one after the other: all of them have the mode of the object, if it has
one, and the object is at the bottom. -/
theorem C102_made (x : Wrapped) (hx : ∀ s m y, x ≠ .wrap s m y) (ss : List SizeAttr) :
    let f := ss.foldr Wrapped.mk x
    bottom f = x ∧ sizes f = ss ∧ f.mode = (match x with | .file m _ _ => some m | _ => none) := by
  intro f
  induction ss with
  | nil =>
    show bottom x = x ∧ sizes x = [] ∧ x.mode = _
    cases x with
    | wrap s m y => exact absurd rfl (hx s m y)
    | _ => exact ⟨rfl, rfl, rfl⟩
  | cons s ss ih =>
    obtain ⟨h1, h2, h3⟩ := ih
    exact ⟨h1, congrArg (s :: ·) h2, h3⟩

example : (([.int 3, .method] : List SizeAttr).foldr Wrapped.mk (.file b!"w+b" false false)).mode = some b!"w+b" :=
  (C102_made _ (by simp) _).2.2

/-- Two wrappers around a file without a known size: open at the bottom, and asking for `closed` raises. -/
example : sizes (.wrap (.int 3) none (.wrap .method none (.file b!"w+b" false false))) = [.int 3] ++ .method :: [] ∧
    ¬ IsClosed (.wrap (.int 3) none (.wrap .method none (.file b!"w+b" false false))) :=
  ⟨rfl, by simp [IsClosed, bottom]⟩

/-- C102 is false of the code: (1) a `File` around an empty uploaded file that is open says that it is closed,
(2) and around a `File` of unknown size it cannot say anything; (3) a file opened with `wb` is called readable,
(4) ones opened with `ab` and `r+b` are called not writable, (5) a pipe is called seekable. -/
theorem C102_refuted :
    ((Wrapped.mk .method (.mk (.int 0) (.file b!"w+b" false false))).closed = .ok true ∧
      ¬ IsClosed (.mk .method (.mk (.int 0) (.file b!"w+b" false false)))) ∧
    ((Wrapped.mk .method (.mk .method (.file b!"w+b" false false))).closed = .error .typeError) ∧
    ((Wrapped.mk .method (.file b!"wb" false false)).readable = .ok true ∧
      ¬ CanRead (.mk .method (.file b!"wb" false false))) ∧
    (∀ m ∈ [b!"ab", b!"r+b"], (Wrapped.mk .method (.file m false false)).writable = .ok false ∧
      CanWrite (.mk .method (.file m false false))) ∧
    ((Wrapped.mk .method (.file b!"rb" false true)).seekable = .ok true ∧
      ¬ CanSeek (.mk .method (.file b!"rb" false true))) := by
  refine ⟨⟨rfl, ?_⟩, rfl, ⟨rfl, ?_⟩, ?_, ⟨rfl, ?_⟩⟩
  · simp [IsClosed, Wrapped.mk, bottom]
  · simp [CanRead, Wrapped.mk, bottom]
  · intro m hm
    simp only [List.mem_cons, List.not_mem_nil, or_false] at hm
    rcases hm with rfl | rfl
    · exact ⟨rfl, .inr ⟨_, _, rfl, by decide⟩⟩
    · exact ⟨rfl, .inr ⟨_, _, rfl, by decide⟩⟩
  · simp [CanSeek, Wrapped.mk, bottom]

/-! ## C103 -/

/-- C103 (partial): closing is done once, whatever fails.  After the first `close()` the file inside is closed and
the entry removed if these calls succeed, and any further calls (also the one at deletion) change nothing. -/
theorem C103_close_partial (t : WinTemp) (h : t.closeCalled = false) (a b : Bool) (later : List (Bool × Bool)) :
    (later.foldl (fun t p => t.close p.1 p.2) (t.close a b)) = t.close a b ∧
    ((t.close a b).fileClosed = true ↔ t.fileClosed = true ∨ a = true) ∧
    ((t.close a b).exists_ = true ↔ t.exists_ = true ∧ b = false) ∧
    (t.close a b).closes = t.closes + 1 ∧ (t.close a b).unlinks = t.unlinks + 1 := by
  refine ⟨?_, ?_⟩
  · have hc : (t.close a b).closeCalled = true := by simp [WinTemp.close, h]
    induction later with
    | nil => rfl
    | cons p l ih =>
      rw [List.foldl_cons, show (t.close a b).close p.1 p.2 = t.close a b by
        conv => lhs; rw [WinTemp.close]
        rw [if_pos hc]]
      exact ih
  · simp [WinTemp.close, h]

/-- A new file, closed explicitly and once more when it is deleted. -/
example : ((({} : WinTemp).close true true).close true true) =
    { fileClosed := true, exists_ := false, closeCalled := true, closes := 1, unlinks := 1 } := rfl

/-- C103 is false of the code: leaving a `with` statement closes the file inside but neither removes it (as the class
of the standard library does) nor notes that it was closed; and if the removal fails, it is never tried again. -/
theorem C103_refuted :
    (∀ t : WinTemp, t.exit.fileClosed = true ∧ t.exit.exists_ = t.exists_ ∧ t.exit.closeCalled = t.closeCalled) ∧
    (∀ (t : WinTemp) (c d : Bool), t.closeCalled = false → t.exists_ = true →
      ((t.close true false).close c d).exists_ = true) := by
  refine ⟨fun t => ⟨rfl, rfl, rfl⟩, ?_⟩
  intro t c d h he
  cases c <;> cases d <;> simp [WinTemp.close, h, he]

/-! ## Texts and `with` -/

/-- C104: the uploaded files show themselves with class, name and type, whatever state they are in.  (`repr` of a
`File` that is not an uploaded file raises `TypeError`, see `C104_refuted`.) -/
theorem C104_repr_partial (f : FileO) (ct : Option Bytes) :
    (f.cls = .temp → f.repr ct = .ok (b!"<TemporaryUploadedFile: " ++
      (match f.name with | some n => n | none => b!"None") ++ b!" (" ++
      (match ct with | some c => c | none => b!"None") ++ b!")>")) ∧
    (f.cls = .memory → f.repr ct = .ok (b!"<InMemoryUploadedFile: " ++
      (match f.name with | some n => n | none => b!"None") ++ b!" (" ++
      (match ct with | some c => c | none => b!"None") ++ b!")>")) := by
  obtain ⟨cls, name, size, mode, file, closed⟩ := f
  constructor <;> rintro rfl <;> cases name <;> cases ct <;> rfl

example : (simpleUploaded (some b!"a.txt") b!"x").repr (some b!"text/plain") =
    .ok b!"<InMemoryUploadedFile: a.txt (text/plain)>" := by rfl

/-- C104 is false of the code: `repr` of a `File` whose `size` is the method always raises `TypeError`. -/
theorem C104_refuted (name mode : Option Bytes) (g : PyFile) (c : Bool) (ct : Option Bytes) :
    FileO.repr { cls := .plain, name := name, mode := mode, file := g, closed := c } ct = .error .typeError := rfl

/-- **C104 is false of the code also for a `File` whose size was assigned**: the name is shown only if the size is a
positive number.  With the size 0 the text says `None`, whatever the name is, and with a negative one `repr` raises
`ValueError`. -/
theorem C104_size_refuted (name mode : Option Bytes) (g : PyFile) (c : Bool) (ct : Option Bytes) (n : Int) :
    let f : FileO := { cls := .plain, name := name, size := .int n, mode := mode, file := g, closed := c }
    (0 < n → f.repr ct = .ok (b!"<File: " ++ (match name with | some x => x | none => []) ++ b!">")) ∧
    (n = 0 → f.repr ct = .ok b!"<File: None>") ∧
    (n < 0 → f.repr ct = .error .valueError) := by
  refine ⟨fun h => ?_, fun h => ?_, fun h => ?_⟩
  · have h1 : ¬ n < 0 := by omega
    cases name
    · simp [FileO.repr, FileO.truth, FileO.len, FileO.str, FileCls.text, h1, h]
    · simp [FileO.repr, FileO.truth, FileO.len, FileO.str, FileCls.text, h1]
      intro h2; omega
  · subst h; rfl
  · simp [FileO.repr, FileO.truth, FileO.len, h]

/-- A named file of three bytes and an empty one of the same name. -/
example : (∃ t, FileO.repr { cls := .plain, name := some b!"a", size := .int 3, file := { content := b!"xyz" } } none = .ok t ∧
      97 ∈ t) ∧
    FileO.repr { cls := .plain, name := some b!"a", size := .int 0, file := { content := [] } } none = .ok b!"<File: None>" :=
  ⟨⟨_, rfl, by decide⟩, rfl⟩

/-! ## C105 -/

/-- C105: from a dictionary with a file name and a content, `from_dict` makes an open file whose name is the last
component of the one given (if that has at most 255 bytes), whose length is that of the content, and that yields the
content however and however often it is read, whatever the chunk size; without one of the two it raises `KeyError`.
The type is the given one or `text/plain`. -/
theorem C105_from_dict (d : Bytes → Option (Option Bytes)) :
    (d b!"filename" = none ∨ d b!"content" = none → fromDict d = .error .keyError) ∧
    ∀ name content, d b!"filename" = some name → d b!"content" = some content →
      ∃ f ct, fromDict d = .ok (f, ct) ∧ (f.closed = false) ∧ f.len = .ok (content.getD []).length ∧
        (∀ n b, name = some n → LastComponent n b → b.length ≤ 255 → f.name = some b) ∧
        (name = none → f.name = none) ∧
        (∀ t, d b!"content-type" = some t → ct = t) ∧
        (d b!"content-type" = none → ct = some b!"text/plain") ∧
        (∀ k, ∃ cs g, f.chunks k = .ok (cs, g) ∧ cs.flatten = content.getD [] ∧
          ∀ k', ∃ cs' g', g.chunks k' = .ok (cs', g') ∧ cs'.flatten = content.getD []) := by
  refine ⟨?_, ?_⟩
  · rintro (h | h)
    · simp only [fromDict, h]
    · simp only [fromDict, h]
      cases d b!"filename" <;> rfl
  · intro name content h1 h2
    refine ⟨_, _, by simp only [fromDict, h1, h2]; rfl, rfl, ?_, ?_, ?_, ?_, ?_, ?_⟩
    · simp [simpleUploaded, FileO.len]
    · rintro n b rfl hb hl
      simp [simpleUploaded, setName_short hb hl]
    · rintro rfl; rfl
    · intro t h3; simp only [h3]
    · intro h3; simp only [h3]
    · intro k
      refine ⟨_, _, rfl, ?_, ?_⟩
      · simp [memoryChunks, PyFile.read, simpleUploaded]
      · intro k'
        refine ⟨_, _, rfl, ?_⟩
        simp [memoryChunks, PyFile.read, simpleUploaded]

/-- A dictionary with a path, a content and no type. -/
example : let d : Bytes → Option (Option Bytes) := fun k =>
      if k = b!"filename" then some (some b!"/tmp/a.txt") else if k = b!"content" then some (some b!"hi") else none
    (fromDict d).toOption = some (simpleUploaded (some b!"a.txt") b!"hi", some b!"text/plain") := by
  decide +kernel

end Verif
