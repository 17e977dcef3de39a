import Verif.Proofs.Re
import Verif.Props.Date2
import Verif.Props.Entry
import Verif.Props.Util
import Verif.Props.RequestHead
import Verif.Props.Text
import Verif.Props.Query
/-!
# The regular expressions of the package (C126)
-/

namespace Verif

/-! ## Dates -/

/-- The groups of an expression for dates, in the order of the expression. -/
def Spec.dateCaps (order : List Bytes) (d : DateText) : Caps :=
  order.map fun n => (n, Py.toU (
    if n = b!"day" then d.day else if n = b!"mon" then d.mon else if n = b!"year" then d.year
    else if n = b!"hour" then d.hour else if n = b!"min" then d.min else d.sec))

theorem has_digit (b : UInt8) : (CharSet.mk false digitRanges).has b.toNat = Py.isDigit b := by
  have := forall_u8 (fun b => decide ((CharSet.mk false digitRanges).has b.toNat = Py.isDigit b)) (by decide +kernel) b
  exact of_decide_eq_true this

theorem has_word (b : UInt8) : (CharSet.mk false wordRanges).has b.toNat = isWordChar b := by
  have := forall_u8 (fun b => decide ((CharSet.mk false wordRanges).has b.toNat = isWordChar b)) (by decide +kernel) b
  exact of_decide_eq_true this

theorem has_spaceDigit (b : UInt8) :
    (CharSet.mk false ((32, 32) :: digitRanges)).has b.toNat = (b = 32 || Py.isDigit b) := by
  have := forall_u8 (fun b => decide ((CharSet.mk false ((32, 32) :: digitRanges)).has b.toNat = (b = 32 || Py.isDigit b)))
    (by decide +kernel) b
  exact of_decide_eq_true this

theorem has_one (c b : UInt8) : (CharSet.mk false [(c.toNat, c.toNat)]).has b.toNat = decide (b = c) := by
  simp only [CharSet.has, List.any_cons, List.any_nil, Bool.or_false, Bool.bne_false]
  rw [Bool.eq_iff_iff]
  simp only [Bool.and_eq_true, decide_eq_true_eq, ← UInt8.toNat_inj]
  omega

theorem takeLit_one (c : UInt8) (s : Bytes) : takeLit [c] s = (takeN (fun b => decide (b = c)) 1 s).map Prod.snd := by
  unfold takeLit takeN
  cases s with
  | nil => rfl
  | cons x t =>
    by_cases h : x = c
    · subst h
      simp [Py.startsWith]
    · simp [Py.startsWith, h, Ne.symm h]

theorem takeLit_cons (a b : UInt8) (l s : Bytes) :
    takeLit (a :: b :: l) s = (takeLit [a] s).bind (takeLit (b :: l)) := by
  unfold takeLit
  cases s with
  | nil => rfl
  | cons x t =>
    by_cases h : a = x
    · subst h
      simp [Py.startsWith]
    · simp [Py.startsWith, h]

/-- The expression `r`, at the start of `s` and after the groups `acc`, matches exactly if `o` is a date, and
then the groups are those of the date. -/
def Ch (order : List Bytes) (r : Re) (s : Bytes) (o : Option DateText) (acc : Caps) : Prop :=
  ∀ f caps, (∃ rest c, r.Eats f (Py.toU s) rest c ∧ caps = acc ++ c) ↔ o.map (Spec.dateCaps order) = some caps

theorem Ch.step {order : List Bytes} {a b : Re} {s : Bytes} {g : Bytes → Option (Caps × Bytes)} {acc : Caps}
    (h : Det a g) {o : Option DateText} (hn : g s = none → o = none)
    (hs : ∀ c u, g s = some (c, u) → Ch order b u o (acc ++ c)) : Ch order (.seq a b) s o acc := by
  intro f caps
  cases e : g s with
  | none =>
    rw [hn e]
    constructor
    · rintro ⟨rest, c, ⟨m, c1, c2, h1, -, rfl⟩, rfl⟩
      obtain ⟨u, e', -⟩ := (h _ _ _ _).1 h1
      rw [e] at e'
      cases e'
    · intro h
      cases h
  | some p =>
    obtain ⟨c0, u⟩ := p
    have key := fun f => hs c0 u e f caps
    constructor
    · rintro ⟨rest, c, ⟨m, c1, c2, h1, h2, rfl⟩, rfl⟩
      obtain ⟨v, e', rfl⟩ := (h _ _ _ _).1 h1
      rw [e] at e'
      cases e'
      exact (key _).1 ⟨rest, c2, h2, by simp⟩
    · intro h'
      obtain ⟨rest, c, h2, rfl⟩ := (key (f && (Py.toU u).length == (Py.toU s).length)).2 h'
      exact ⟨rest, c0 ++ c, ⟨Py.toU u, c0, c, (h _ _ _ _).2 ⟨u, e, rfl⟩, h2, rfl⟩, by simp⟩

/-- A literal character. -/
theorem Ch.lit {order : List Bytes} {b : Re} {s : Bytes} {acc : Caps} (c : UInt8) {k : Bytes → Option DateText}
    (h : ∀ u, Ch order b u (k u) acc) :
    Ch order (.seq (.set ⟨false, [(c.toNat, c.toNat)]⟩) b) s ((takeLit [c] s).bind k) acc := by
  rw [takeLit_one]
  refine Ch.step (Det.set _ _ (has_one c)) ?_ ?_
  · intro e
    simp only [Option.map_eq_none_iff] at e
    rw [e]
    rfl
  · intro c' u e
    obtain ⟨p, e', h'⟩ := Option.map_eq_some_iff.1 e
    cases h'
    rw [e', List.append_nil]
    exact h _

/-- Two literal characters. -/
theorem Ch.lit2 {order : List Bytes} {b : Re} {s : Bytes} {acc : Caps} (c d : UInt8) {k : Bytes → Option DateText}
    (h : ∀ u, Ch order b u (k u) acc) :
    Ch order (.seq (.set ⟨false, [(c.toNat, c.toNat)]⟩) (.seq (.set ⟨false, [(d.toNat, d.toNat)]⟩) b)) s
      ((takeLit [c, d] s).bind k) acc := by
  rw [takeLit_cons, Option.bind_assoc]
  exact Ch.lit c fun _ => Ch.lit d h

/-- Four literal characters. -/
theorem Ch.lit4 {order : List Bytes} {r : Re} {s : Bytes} {acc : Caps} (a b c d : UInt8) {k : Bytes → Option DateText}
    (h : ∀ u, Ch order r u (k u) acc) :
    Ch order (.seq (.set ⟨false, [(a.toNat, a.toNat)]⟩) (.seq (.set ⟨false, [(b.toNat, b.toNat)]⟩)
      (.seq (.set ⟨false, [(c.toNat, c.toNat)]⟩) (.seq (.set ⟨false, [(d.toNat, d.toNat)]⟩) r)))) s
      ((takeLit [a, b, c, d] s).bind k) acc := by
  rw [takeLit_cons, Option.bind_assoc]
  refine Ch.lit a fun _ => ?_
  rw [takeLit_cons, Option.bind_assoc]
  exact Ch.lit b fun _ => Ch.lit2 c d h

/-- Some characters outside a group. -/
theorem Ch.skip {order : List Bytes} {b : Re} {s : Bytes} {acc : Caps} {c : CharSet} {p : UInt8 → Bool}
    (hp : ∀ b : UInt8, c.has b.toNat = p b) {n : Nat} {k : Bytes × Bytes → Option DateText}
    (h : ∀ t u, Ch order b u (k (t, u)) acc) :
    Ch order (.seq (.rep (.set c) n (some n)) b) s ((takeN p n s).bind k) acc := by
  refine Ch.step (Det.repN _ _ hp n) ?_ ?_
  · intro e
    simp only [Option.map_eq_none_iff] at e
    rw [e]
    rfl
  · intro c' u e
    obtain ⟨⟨t, u⟩, e', h'⟩ := Option.map_eq_some_iff.1 e
    cases h'
    rw [e', List.append_nil]
    exact h _ _

/-- Some characters in a group. -/
theorem Ch.grp {order : List Bytes} {b : Re} {s : Bytes} {acc : Caps} {c : CharSet} {p : UInt8 → Bool} {name : Bytes}
    (hp : ∀ b : UInt8, c.has b.toNat = p b) {n : Nat} {k : Bytes × Bytes → Option DateText}
    (h : ∀ t u, Ch order b u (k (t, u)) (acc ++ [(name, Py.toU t)])) :
    Ch order (.seq (.group name (.seq (.rep (.set c) n (some n)) .empty)) b) s ((takeN p n s).bind k) acc := by
  refine Ch.step (Det.groupN name _ _ hp n) ?_ ?_
  · intro e
    simp only [Option.map_eq_none_iff] at e
    rw [e]
    rfl
  · intro c' u e
    obtain ⟨⟨t, u⟩, e', h'⟩ := Option.map_eq_some_iff.1 e
    cases h'
    rw [e']
    exact h _ _

/-- Two characters, each of its own class, in a group. -/
theorem Ch.grp2 {order : List Bytes} {b : Re} {s : Bytes} {acc : Caps} {c1 c2 : CharSet} {p1 p2 : UInt8 → Bool}
    {name : Bytes} (hp1 : ∀ b : UInt8, c1.has b.toNat = p1 b) (hp2 : ∀ b : UInt8, c2.has b.toNat = p2 b)
    {k : Bytes → Bytes → Bytes → Option DateText}
    (h : ∀ t1 t2 u, Ch order b u (k t1 t2 u) (acc ++ [(name, Py.toU (t1 ++ t2))])) :
    Ch order (.seq (.group name (.seq (.set c1) (.seq (.set c2) .empty))) b) s
      ((takeN p1 1 s).bind fun q => (takeN p2 1 q.2).bind fun q' => k q.1 q'.1 q'.2) acc := by
  have hd := (Det.set _ _ hp1).seq ((Det.set _ _ hp2).seq Det.empty)
  have hg := hd.group name (by
    intro s c u h
    obtain ⟨p, hp, h⟩ := Option.bind_eq_some_iff.1 h
    obtain ⟨q, hq, h⟩ := Option.map_eq_some_iff.1 h
    obtain ⟨⟨x, y⟩, hp', rfl⟩ := Option.map_eq_some_iff.1 hp
    obtain ⟨q1, hq1, hq⟩ := Option.bind_eq_some_iff.1 hq
    obtain ⟨⟨x', y'⟩, hq', rfl⟩ := Option.map_eq_some_iff.1 hq1
    cases hq
    cases h
    obtain ⟨rfl, -, -⟩ := takeN_eq_some.1 hp'
    obtain ⟨e, -, -⟩ := takeN_eq_some.1 hq'
    exact ⟨x ++ x', by simp only at e; rw [e]; simp⟩)
  cases e1 : takeN p1 1 s with
  | none =>
    refine Ch.step hg (fun _ => rfl) ?_
    intro c u h
    simp [e1] at h
  | some p =>
    obtain ⟨t1, v⟩ := p
    cases e2 : takeN p2 1 v with
    | none =>
      refine Ch.step hg (fun _ => by simp [e2]) ?_
      intro c u h
      simp [e1, e2] at h
    | some q =>
      obtain ⟨t2, w⟩ := q
      refine Ch.step hg ?_ ?_
      · intro h
        simp [e1, e2] at h
      · intro c u h'
        obtain ⟨rfl, -, -⟩ := takeN_eq_some.1 e1
        obtain ⟨rfl, -, -⟩ := takeN_eq_some.1 e2
        simp only [e1, e2, Option.map_some, Option.bind_some, Option.some.injEq, Prod.mk.injEq] at h'
        obtain ⟨rfl, rfl⟩ := h'
        have := h t1 t2 w
        simpa [e2, ← List.append_assoc] using this

/-- The time of day. -/
theorem Ch.time {order : List Bytes} {b : Re} {s : Bytes} {acc : Caps}
    {k : (Bytes × Bytes × Bytes) × Bytes → Option DateText}
    (h : ∀ x y z u, Ch order b u (k ((x, y, z), u))
      (acc ++ [(b!"hour", Py.toU x)] ++ [(b!"min", Py.toU y)] ++ [(b!"sec", Py.toU z)])) :
    Ch order (.seq (.group b!"hour" (.seq (.rep (.set ⟨false, digitRanges⟩) 2 (some 2)) .empty))
      (.seq (.set ⟨false, [((58 : UInt8).toNat, (58 : UInt8).toNat)]⟩)
      (.seq (.group b!"min" (.seq (.rep (.set ⟨false, digitRanges⟩) 2 (some 2)) .empty))
      (.seq (.set ⟨false, [((58 : UInt8).toNat, (58 : UInt8).toNat)]⟩)
      (.seq (.group b!"sec" (.seq (.rep (.set ⟨false, digitRanges⟩) 2 (some 2)) .empty)) b))))) s
      ((matchTime s).bind k) acc := by
  unfold matchTime
  rw [Option.bind_assoc]
  refine Ch.grp has_digit fun x u => ?_
  rw [Option.bind_assoc]
  refine Ch.lit 58 fun u => ?_
  rw [Option.bind_assoc]
  refine Ch.grp has_digit fun y u => ?_
  rw [Option.bind_assoc]
  refine Ch.lit 58 fun u => ?_
  rw [Option.bind_assoc]
  refine Ch.grp has_digit fun z u => ?_
  exact h x y z u

/-- `$` at the end. -/
theorem Ch.fin {order : List Bytes} {s : Bytes} {acc : Caps} {d : DateText} (h : Spec.dateCaps order d = acc) :
    Ch order (.seq .dollar .empty) s (if atEnd s then some d else none) acc := by
  refine Ch.step Det.dollar ?_ ?_
  · intro e
    split at e
    · cases e
    · rename_i h
      exact if_neg h
  · intro c u e
    split at e
    · rename_i h'
      cases e
      rw [if_pos h']
      intro f caps
      simp only [Option.map_some, h, List.append_nil, Option.some.injEq]
      constructor
      · rintro ⟨rest, c, ⟨-, rfl⟩, rfl⟩
        simp
      · rintro rfl
        exact ⟨_, [], ⟨rfl, rfl⟩, by simp⟩
    · cases e

theorem Ch.match {order : List Bytes} {r : Re} {s : Bytes} {o : Option DateText} (h : Ch order r s o []) (caps : Caps) :
    (Re.seq .start r).Match (Py.toU s) caps ↔ o.map (Spec.dateCaps order) = some caps := by
  rw [← h true caps]
  constructor
  · rintro ⟨rest, m, c1, c2, ⟨-, rfl, rfl⟩, h2, rfl⟩
    refine ⟨rest, _, ?_, rfl⟩
    simpa using h2
  · rintro ⟨rest, c, h2, rfl⟩
    refine ⟨rest, _, [], _, ⟨rfl, rfl, rfl⟩, ?_, rfl⟩
    simpa using h2

/-- One literal character of an expression. -/
def litRe (c : UInt8) : Re := .set ⟨false, [(c.toNat, c.toNat)]⟩

/-- A group with `n` characters of a class. -/
def groupRe (name : Bytes) (rs : List (Nat × Nat)) (n : Nat) : Re :=
  .group name (.seq (.rep (.set ⟨false, rs⟩) n (some n)) .empty)

/-- The time of day, then `r`. -/
def timeRe (r : Re) : Re :=
  .seq (groupRe b!"hour" digitRanges 2) (.seq (litRe 58) (.seq (groupRe b!"min" digitRanges 2) (.seq (litRe 58)
    (.seq (groupRe b!"sec" digitRanges 2) r))))

/-- `RFC1123_DATE`. -/
theorem C126_rfc1123 : ∃ r, Re.compile rfc1123Pattern = some r ∧ ∀ (s : Bytes) (caps : Caps),
    r.Match (Py.toU s) caps ↔ (matchRfc1123 s).map
      (Spec.dateCaps [b!"day", b!"mon", b!"year", b!"hour", b!"min", b!"sec"]) = some caps := by
  refine ⟨_, (by decide +kernel : Re.compile rfc1123Pattern = some (
    .seq .start (.seq (.rep (.set ⟨false, wordRanges⟩) 3 (some 3)) (.seq (litRe 44) (.seq (litRe 32)
      (.seq (groupRe b!"day" digitRanges 2) (.seq (litRe 32) (.seq (groupRe b!"mon" wordRanges 3) (.seq (litRe 32)
      (.seq (groupRe b!"year" digitRanges 4) (.seq (litRe 32) (timeRe (.seq (litRe 32) (.seq (litRe 71)
      (.seq (litRe 77) (.seq (litRe 84) (.seq .dollar .empty))))))))))))))))), ?_⟩
  intro s caps
  refine Ch.match ?_ caps
  exact Ch.skip has_word fun _ _ => Ch.lit2 44 32 fun _ => Ch.grp has_digit fun _ _ => Ch.lit 32 fun _ =>
    Ch.grp has_word fun _ _ => Ch.lit 32 fun _ => Ch.grp has_digit fun _ _ => Ch.lit 32 fun _ =>
    Ch.time fun _ _ _ _ => Ch.lit4 32 71 77 84 fun _ => Ch.fin rfl

/-- `ASCTIME_DATE`. -/
theorem C126_asctime : ∃ r, Re.compile asctimePattern = some r ∧ ∀ (s : Bytes) (caps : Caps),
    r.Match (Py.toU s) caps ↔ (matchAsctime s).map
      (Spec.dateCaps [b!"mon", b!"day", b!"hour", b!"min", b!"sec", b!"year"]) = some caps := by
  refine ⟨_, (by decide +kernel : Re.compile asctimePattern = some (
    .seq .start (.seq (.rep (.set ⟨false, wordRanges⟩) 3 (some 3)) (.seq (litRe 32)
      (.seq (groupRe b!"mon" wordRanges 3) (.seq (litRe 32)
      (.seq (.group b!"day" (.seq (.set ⟨false, (32, 32) :: digitRanges⟩) (.seq (.set ⟨false, digitRanges⟩) .empty)))
      (.seq (litRe 32) (timeRe (.seq (litRe 32) (.seq (groupRe b!"year" digitRanges 4)
      (.seq .dollar .empty)))))))))))), ?_⟩
  intro s caps
  refine Ch.match ?_ caps
  refine Ch.skip has_word fun _ _ => Ch.lit 32 fun _ => Ch.grp has_word fun mo _ => Ch.lit 32 fun _ =>
    Ch.grp2 (k := fun d1 d2 s => (takeLit b!" " s).bind fun s => (matchTime s).bind fun (t, s) => (takeLit b!" " s).bind fun s =>
      (takeN Py.isDigit 4 s).bind fun (y, s) => if atEnd s then some ⟨y, mo, d1 ++ d2, t.1, t.2.1, t.2.2⟩ else none)
      has_spaceDigit has_digit fun _ _ _ => Ch.lit 32 fun _ => Ch.time fun _ _ _ _ => Ch.lit 32 fun _ =>
    Ch.grp has_digit fun _ _ => Ch.fin rfl

example : ∃ r, Re.compile asctimePattern = some r ∧ r.Match (Py.toU b!"Sun Nov  6 08:49:37 1994")
    (Spec.dateCaps [b!"mon", b!"day", b!"hour", b!"min", b!"sec", b!"year"]
      ⟨b!"1994", b!"Nov", b!" 6", b!"08", b!"49", b!"37"⟩) := by
  obtain ⟨r, hr, h⟩ := C126_asctime
  exact ⟨r, hr, (h _ _).2 (by decide)⟩

/-- `\w{6,9}` and then a character that is not in `\w`. -/
theorem Ch.words {order : List Bytes} {b : Re} {s : Bytes} {acc : Caps} {c : UInt8} (hc : isWordChar c = false)
    {lo hi : Nat} {l : Bytes} {o : Bytes → Option DateText} {k : Bytes → Option DateText}
    (ho : ∀ u, o u = (takeLit (c :: l) u).bind k)
    (h : ∀ u, Ch order (.seq (litRe c) b) u (o u) acc) :
    Ch order (.seq (.rep (.set ⟨false, wordRanges⟩) lo (some hi)) (.seq (litRe c) b)) s
      (if lo ≤ (s.takeWhile isWordChar).length ∧ (s.takeWhile isWordChar).length ≤ hi then
        o (s.drop (s.takeWhile isWordChar).length) else none) acc := by
  intro f caps
  have hsplit : s = s.takeWhile isWordChar ++ s.drop (s.takeWhile isWordChar).length := by
    rw [drop_takeWhile_length]
    exact (List.takeWhile_append_dropWhile ..).symm
  constructor
  · rintro ⟨rest, cc, ⟨m, c1, c2, h1, h2, rfl⟩, rfl⟩
    obtain ⟨t, e, hlo, hhi, hall, rfl⟩ := (Re.rep_set _ _ _ _ _ _ _).1 h1
    obtain ⟨a, d, rfl, rfl, rfl⟩ := (toU_append_iff _ _ _).1 e
    obtain ⟨m', d1, d2, ⟨x, hx, hxc, rfl⟩, h3, rfl⟩ := h2
    obtain ⟨x, d, rfl, rfl, rfl⟩ := (toU_cons_iff _ _ _).1 hx
    have hxc' : x = c := by
      have := has_one c x
      rw [hxc] at this
      exact of_decide_eq_true this.symm
    subst hxc'
    have hw : (a ++ x :: d).takeWhile isWordChar = a := by
      rw [List.takeWhile_append_of_pos]
      · simp [hc]
      · intro y hy
        rw [← has_word]
        exact hall _ (List.mem_map_of_mem hy)
    rw [hw, if_pos ⟨by simpa [Py.toU] using hlo, by simpa [Py.toU] using hhi hi rfl⟩, List.drop_left]
    exact (h (x :: d) _ _).1 ⟨rest, _, ⟨Py.toU d, [], _, ⟨_, rfl, hxc, rfl⟩, h3, rfl⟩, by simp⟩
  · intro hh
    split at hh
    · rename_i hl
      obtain ⟨rest, cc, h2, rfl⟩ := (h _ (f && (Py.toU (s.drop (s.takeWhile isWordChar).length)).length == (Py.toU s).length) _).2 hh
      refine ⟨rest, cc, ⟨Py.toU (s.drop (s.takeWhile isWordChar).length), [], cc, ?_, h2, rfl⟩, rfl⟩
      refine (Re.rep_set _ _ _ _ _ _ _).2 ⟨Py.toU (s.takeWhile isWordChar), ?_, ?_, ?_, ?_, rfl⟩
      · rw [toU_append_iff]
        exact ⟨_, _, hsplit, rfl, rfl⟩
      · simpa [Py.toU] using hl.1
      · intro k hk
        cases hk
        simpa [Py.toU] using hl.2
      · intro x hx
        obtain ⟨y, hy, rfl⟩ := List.mem_map.1 hx
        rw [has_word]
        exact mem_takeWhile hy
    · cases hh

/-- `RFC850_DATE`. -/
theorem C126_rfc850 : ∃ r, Re.compile rfc850Pattern = some r ∧ ∀ (s : Bytes) (caps : Caps),
    r.Match (Py.toU s) caps ↔ (matchRfc850 s).map
      (Spec.dateCaps [b!"day", b!"mon", b!"year", b!"hour", b!"min", b!"sec"]) = some caps := by
  refine ⟨_, (by decide +kernel : Re.compile rfc850Pattern = some (
    .seq .start (.seq (.rep (.set ⟨false, wordRanges⟩) 6 (some 9)) (.seq (litRe 44) (.seq (litRe 32)
      (.seq (groupRe b!"day" digitRanges 2) (.seq (litRe 45) (.seq (groupRe b!"mon" wordRanges 3) (.seq (litRe 45)
      (.seq (groupRe b!"year" digitRanges 2) (.seq (litRe 32) (timeRe (.seq (litRe 32) (.seq (litRe 71)
      (.seq (litRe 77) (.seq (litRe 84) (.seq .dollar .empty))))))))))))))))), ?_⟩
  intro s caps
  refine Ch.match ?_ caps
  refine Ch.words (by decide) (o := fun u => (takeLit b!", " u).bind _) (fun _ => rfl) fun _ =>
    Ch.lit2 44 32 fun _ => Ch.grp has_digit fun _ _ => Ch.lit 45 fun _ =>
    Ch.grp has_word fun _ _ => Ch.lit 45 fun _ => Ch.grp has_digit fun _ _ => Ch.lit 32 fun _ =>
    Ch.time fun _ _ _ _ => Ch.lit4 32 71 77 84 fun _ => Ch.fin rfl

/-- One literal character. -/
theorem Lang.lit (c : UInt8) : Lang (litRe c) (fun t caps => t = [c] ∧ caps = []) :=
  (Lang.set (p := fun x => x = c) fun x => by rw [has_one]; exact decide_eq_true_iff).of fun t caps => by
    constructor
    · rintro ⟨x, rfl, rfl, rfl⟩
      exact ⟨rfl, rfl⟩
    · rintro ⟨rfl, rfl⟩
      exact ⟨c, rfl, rfl, rfl⟩

/-! ## Boundaries -/

/-- The expression of `cgi.valid_boundary`. -/
theorem C126_boundary : ∃ r, Re.compile boundaryPattern = some r ∧ ∀ s : List Nat,
    validBoundary s = true ↔ ∃ caps, r.Match s caps := by
  refine ⟨_, (by decide +kernel : Re.compile boundaryPattern = some (
    .seq .start (.seq (.rep (.set ⟨false, [(32, 126)]⟩) 0 (some 200)) (.seq (.set ⟨false, [(33, 126)]⟩)
      (.seq .dollar .empty))))), fun s => ?_⟩
  rw [validBoundary_iff]
  constructor
  · rintro ⟨t, c, h, hl, ht, h1, h2⟩
    obtain ⟨e, he, rfl⟩ : ∃ e, (e = [] ∨ e = [10]) ∧ s = t ++ (c :: e) := by
      rcases h with rfl | rfl
      · exact ⟨[], .inl rfl, rfl⟩
      · exact ⟨[10], .inr rfl, rfl⟩
    refine ⟨[], e, _, [], [], ⟨rfl, rfl, rfl⟩, ⟨c :: e, [], [], (Re.rep_set _ _ _ _ _ _ _).2
      ⟨t, rfl, Nat.zero_le _, fun k hk => by cases hk; exact hl, ?_, rfl⟩, ⟨e, [], [], ⟨c, rfl, ?_, rfl⟩,
        ⟨e, [], [], ⟨he, rfl, rfl⟩, ⟨rfl, rfl⟩, rfl⟩, rfl⟩, rfl⟩, rfl⟩
    · intro x hx
      simpa [CharSet.has] using ht x hx
    · simpa [CharSet.has] using ⟨h1, h2⟩
  · rintro ⟨caps, rest, m, c1, c2, ⟨-, rfl, rfl⟩, ⟨m, c1, c2, h1, ⟨m', c3, c4, ⟨c, rfl, hc, rfl⟩,
      ⟨m'', c5, c6, ⟨he, rfl, rfl⟩, ⟨rfl, rfl⟩, rfl⟩, rfl⟩, rfl⟩, rfl⟩
    obtain ⟨t, rfl, -, hl, ht, rfl⟩ := (Re.rep_set _ _ _ _ _ _ _).1 h1
    refine ⟨t, c, ?_, hl _ rfl, ?_, ?_⟩
    · rcases he with rfl | rfl
      · exact .inl rfl
      · exact .inr rfl
    · intro x hx
      simpa [CharSet.has] using ht x hx
    · simpa [CharSet.has] using hc

example : ∃ r, Re.compile boundaryPattern = some r ∧ (∃ caps, r.Match (Py.toU b!"one two\n") caps) ∧
    ¬ ∃ caps, r.Match (Py.toU b!"one ") caps := by
  obtain ⟨r, hr, h⟩ := C126_boundary
  exact ⟨r, hr, (h _).1 (by decide), fun hn => absurd ((h _).2 hn) (by decide)⟩

/-! ## Entity tags -/

/-- `ETAG_MATCH`; its group is the whole text. -/
theorem C126_etag : ∃ r, Re.compileX etagPattern = some r ∧ ∀ (s : Bytes) (caps : Caps),
    r.Match (Py.toU s) caps ↔ etagMatch s = true ∧ caps = [([], Py.toU s)] := by
  refine ⟨_, (by decide +kernel : Re.compileX etagPattern = some (
    .seq .start (.seq (.group [] (.seq (.rep (.seq (litRe 87) (.seq (litRe 47) .empty)) 0 (some 1))
      (.seq (litRe 34) (.seq (.rep (.set ⟨true, [(34, 34)]⟩) 0 none) (.seq (litRe 34) .empty)))))
      (.seq .stop .empty)))), fun s caps => ?_⟩
  rw [etagMatch_iff]
  have hneg : ∀ x : UInt8, (CharSet.mk true [(34, 34)]).has x.toNat = true ↔ x ≠ 34 := by
    intro x
    have := forall_u8 (fun x => decide ((CharSet.mk true [(34, 34)]).has x.toNat = true ↔ x ≠ 34)) (by decide +kernel) x
    exact of_decide_eq_true this
  have hl := (((((Lang.lit 87).seq ((Lang.lit 47).seq Lang.empty)).opt).seq ((Lang.lit 34).seq
    ((Lang.rep hneg 0 none).seq ((Lang.lit 34).seq Lang.empty)))).group []).of
      (Q := fun t caps => Spec.ETag t ∧ caps = [([], Py.toU t)]) (by
    intro t caps
    constructor
    · rintro ⟨c, ⟨x, y, c1, c2, rfl, hw, ⟨y1, y2, d1, d2, rfl, ⟨rfl, rfl⟩, ⟨q, z, d3, d4, rfl, ⟨-, -, hq, rfl⟩,
        ⟨z1, z2, d5, d6, rfl, ⟨rfl, rfl⟩, ⟨rfl, rfl⟩, rfl⟩, rfl⟩, rfl⟩, rfl⟩, rfl⟩
      rcases hw with ⟨rfl, rfl⟩ | ⟨w1, w2, e1, e2, rfl, ⟨rfl, rfl⟩, ⟨w3, w4, e3, e4, rfl, ⟨rfl, rfl⟩, ⟨rfl, rfl⟩, rfl⟩, rfl⟩
      · exact ⟨⟨[], q, .inl rfl, fun h => hq _ h rfl, by simp⟩, rfl⟩
      · exact ⟨⟨b!"W/", q, .inr rfl, fun h => hq _ h rfl, by simp⟩, rfl⟩
    · rintro ⟨⟨w, q, hw, hq, rfl⟩, rfl⟩
      refine ⟨[], ⟨w, [34] ++ (q ++ [34]), [], [], by simp, ?_, ⟨[34], q ++ [34], [], [], rfl, ⟨rfl, rfl⟩,
        ⟨q, [34], [], [], rfl, ⟨Nat.zero_le _, nofun, fun x hx e => hq (e ▸ hx), rfl⟩,
          ⟨[34], [], [], [], rfl, ⟨rfl, rfl⟩, ⟨rfl, rfl⟩, rfl⟩, rfl⟩, rfl⟩, rfl⟩, rfl⟩
      rcases hw with rfl | rfl
      · exact .inl ⟨rfl, rfl⟩
      · exact .inr ⟨[87], [47], [], [], rfl, ⟨rfl, rfl⟩, ⟨[47], [], [], [], rfl, ⟨rfl, rfl⟩, ⟨rfl, rfl⟩, rfl⟩, rfl⟩)
  constructor
  · rintro ⟨rest, m, c1, c2, ⟨-, rfl, rfl⟩, ⟨m, c3, c4, h1, ⟨m', c5, c6, ⟨rfl, rfl, rfl⟩, ⟨rfl, rfl⟩, rfl⟩, rfl⟩, rfl⟩
    obtain ⟨t, u, rfl, hu, ht, rfl⟩ := (hl _ _ _ _).1 h1
    have : u = [] := by
      cases u with
      | nil => rfl
      | cons => cases hu
    subst this
    simp [ht]
  · rintro ⟨h, rfl⟩
    exact ⟨[], _, [], _, ⟨rfl, rfl, rfl⟩, ⟨[], _, [], (hl _ _ _ _).2 ⟨s, [], by simp, rfl, h, rfl⟩,
      ⟨[], [], [], ⟨rfl, rfl, rfl⟩, ⟨rfl, rfl⟩, rfl⟩, rfl⟩, rfl⟩

example : ∃ r, Re.compileX etagPattern = some r ∧ r.Match (Py.toU b!"W/\"a b\"") [([], Py.toU b!"W/\"a b\"")] ∧
    ¬ ∃ caps, r.Match (Py.toU b!"\"a\"b\"") caps := by
  obtain ⟨r, hr, h⟩ := C126_etag
  exact ⟨r, hr, (h _ _).2 ⟨by decide, rfl⟩, fun ⟨c, hn⟩ => absurd ((h _ _).1 hn).1 (by decide)⟩

/-! ## Hosts -/

/-- `host_validation_re`. -/
theorem C126_host : ∃ r, Re.compile hostPattern = some r ∧ ∀ s : Bytes,
    hostValid s = true ↔ ∃ caps, r.Match (Py.toU s) caps := by
  refine ⟨_, (by decide +kernel : Re.compile hostPattern = some (
    .seq .start (.seq (.group [] (.alt
      (.seq (.rep (.set ⟨false, [(97, 122), (48, 57), (46, 46), (45, 45)]⟩) 1 none) .empty)
      (.seq (litRe 91) (.seq (.rep (.set ⟨false, [(97, 102), (48, 57)]⟩) 0 none) (.seq (litRe 58)
        (.seq (.rep (.set ⟨false, [(97, 102), (48, 57), (46, 46), (58, 58)]⟩) 1 none) (.seq (litRe 93) .empty)))))))
      (.seq (.rep (.group [] (.seq (litRe 58) (.seq (.rep (.set ⟨false, [(48, 57)]⟩) 1 none) .empty))) 0 (some 1))
      (.seq .dollar .empty))))), fun s => ?_⟩
  have hname : ∀ x : UInt8, (CharSet.mk false [(97, 122), (48, 57), (46, 46), (45, 45)]).has x.toNat = true ↔
      Spec.nameByte x := by
    intro x
    have := forall_u8 (fun x => decide ((CharSet.mk false [(97, 122), (48, 57), (46, 46), (45, 45)]).has x.toNat = true ↔
      x ∈ b!"abcdefghijklmnopqrstuvwxyz0123456789.-")) (by decide +kernel) x
    exact of_decide_eq_true (p := (CharSet.mk false [(97, 122), (48, 57), (46, 46), (45, 45)]).has x.toNat = true ↔ x ∈ b!"abcdefghijklmnopqrstuvwxyz0123456789.-") this
  have hhex : ∀ x : UInt8, (CharSet.mk false [(97, 102), (48, 57)]).has x.toNat = true ↔ Spec.hexByte x := by
    intro x
    have := forall_u8 (fun x => decide ((CharSet.mk false [(97, 102), (48, 57)]).has x.toNat = true ↔
      x ∈ b!"abcdef0123456789")) (by decide +kernel) x
    exact of_decide_eq_true (p := (CharSet.mk false [(97, 102), (48, 57)]).has x.toNat = true ↔ x ∈ b!"abcdef0123456789") this
  have hip : ∀ x : UInt8, (CharSet.mk false [(97, 102), (48, 57), (46, 46), (58, 58)]).has x.toNat = true ↔
      Spec.hexByte x ∨ x = 46 ∨ x = 58 := by
    intro x
    have := forall_u8 (fun x => decide ((CharSet.mk false [(97, 102), (48, 57), (46, 46), (58, 58)]).has x.toNat = true ↔
      (x ∈ b!"abcdef0123456789" ∨ x = 46 ∨ x = 58))) (by decide +kernel) x
    exact of_decide_eq_true (p := (CharSet.mk false [(97, 102), (48, 57), (46, 46), (58, 58)]).has x.toNat = true ↔ (x ∈ b!"abcdef0123456789" ∨ x = 46 ∨ x = 58)) this
  have hdig : ∀ x : UInt8, (CharSet.mk false [(48, 57)]).has x.toNat = true ↔ Spec.digitByte x := by
    intro x
    have := forall_u8 (fun x => decide ((CharSet.mk false [(48, 57)]).has x.toNat = true ↔ x ∈ b!"0123456789"))
      (by decide +kernel) x
    exact of_decide_eq_true (p := (CharSet.mk false [(48, 57)]).has x.toNat = true ↔ x ∈ b!"0123456789") this
  have hl1 := ((((Lang.rep hname 1 none).seq Lang.empty).alt ((Lang.lit 91).seq ((Lang.rep hhex 0 none).seq
    ((Lang.lit 58).seq ((Lang.rep hip 1 none).seq ((Lang.lit 93).seq Lang.empty)))))).group []).of
    (Q := fun t caps => (Spec.HostName t ∨ Spec.HostIp6 t) ∧ caps = [([], Py.toU t)]) (by
    intro t caps
    constructor
    · rintro ⟨c, ⟨x, y, c1, c2, rfl, ⟨h1, -, h2, rfl⟩, ⟨rfl, rfl⟩, rfl⟩ | ⟨a1, a2, c1, c2, rfl, ⟨rfl, rfl⟩,
        ⟨a3, a4, c3, c4, rfl, ⟨-, -, h1, rfl⟩, ⟨a5, a6, c5, c6, rfl, ⟨rfl, rfl⟩, ⟨a7, a8, c7, c8, rfl, ⟨h2, -, h3, rfl⟩,
        ⟨a9, a10, c9, c10, rfl, ⟨rfl, rfl⟩, ⟨rfl, rfl⟩, rfl⟩, rfl⟩, rfl⟩, rfl⟩, rfl⟩, rfl⟩
      · refine ⟨.inl ⟨?_, by simpa using h2⟩, rfl⟩
        rintro h
        simp only [List.append_nil] at h
        simp [h] at h1
      · refine ⟨.inr ⟨a3, a7, by simp, h1, ?_, h3⟩, rfl⟩
        rintro rfl
        simp at h2
    · rintro ⟨⟨h1, h2⟩ | ⟨h, t, rfl, h1, h2, h3⟩, rfl⟩
      · exact ⟨[], .inl ⟨t, [], [], [], by simp, ⟨List.length_pos_iff.2 h1, nofun, h2, rfl⟩,
          ⟨rfl, rfl⟩, rfl⟩, rfl⟩
      · exact ⟨[], .inr ⟨[91], h ++ ([58] ++ (t ++ [93])), [], [], by simp, ⟨rfl, rfl⟩, ⟨h, _, [], [], rfl,
          ⟨Nat.zero_le _, nofun, h1, rfl⟩, ⟨[58], _, [], [], rfl, ⟨rfl, rfl⟩, ⟨t, [93], [], [], rfl,
          ⟨List.length_pos_iff.2 h2, nofun, h3, rfl⟩, ⟨[93], [], [], [], rfl, ⟨rfl, rfl⟩,
          ⟨rfl, rfl⟩, rfl⟩, rfl⟩, rfl⟩, rfl⟩, rfl⟩, rfl⟩)
  have hl2 := (((Lang.lit 58).seq ((Lang.rep hdig 1 none).seq Lang.empty)).group []).opt.of
    (Q := fun t caps => (t = [] ∧ caps = []) ∨ ∃ d, d ≠ [] ∧ (∀ x ∈ d, Spec.digitByte x) ∧ t = [58] ++ d ∧
      caps = [([], Py.toU t)]) (by
    intro t caps
    refine or_congr Iff.rfl ?_
    constructor
    · rintro ⟨c, ⟨a1, a2, c1, c2, rfl, ⟨rfl, rfl⟩, ⟨a3, a4, c3, c4, rfl, ⟨h1, -, h2, rfl⟩, ⟨rfl, rfl⟩, rfl⟩, rfl⟩, rfl⟩
      refine ⟨a3, ?_, h2, by simp, rfl⟩
      rintro rfl
      simp at h1
    · rintro ⟨d, h1, h2, rfl, rfl⟩
      exact ⟨[], ⟨[58], d, [], [], rfl, ⟨rfl, rfl⟩, ⟨d, [], [], [], by simp,
        ⟨List.length_pos_iff.2 h1, nofun, h2, rfl⟩, ⟨rfl, rfl⟩, rfl⟩, rfl⟩, rfl⟩)
  have key : hostValid s = true ↔ ∃ t d p, (s = t ∨ s = t ++ [10]) ∧ Spec.HostForm t d p := by
    unfold hostValid
    simp only [Bool.or_eq_true, Bool.and_eq_true, decide_eq_true_eq, hostMatch_iff]
    constructor
    · rintro (⟨d, p, h⟩ | ⟨h, d, p, h'⟩)
      · exact ⟨s, d, p, .inl rfl, h⟩
      · obtain ⟨u, rfl⟩ := List.getLast?_eq_some_iff.1 h
        rw [List.dropLast_concat] at h'
        exact ⟨u, d, p, .inr rfl, h'⟩
    · rintro ⟨t, d, p, rfl | rfl, h⟩
      · exact .inl ⟨d, p, h⟩
      · exact .inr ⟨by simp, d, p, by rwa [List.dropLast_concat]⟩
  rw [key]
  constructor
  · rintro ⟨t, d, p, hs, hd, hp, ht⟩
    obtain ⟨e, he, rfl⟩ : ∃ e : Bytes, (Py.toU e = [] ∨ Py.toU e = [10]) ∧ s = t ++ e := by
      rcases hs with rfl | rfl
      · exact ⟨[], .inl rfl, by simp⟩
      · exact ⟨[10], .inr rfl, rfl⟩
    obtain ⟨q, hq, rfl⟩ : ∃ q, (q = [] ∨ ∃ d, d ≠ [] ∧ (∀ x ∈ d, Spec.digitByte x) ∧ q = [58] ++ d) ∧ t = d ++ q := by
      rcases ht with ⟨rfl, rfl⟩ | ⟨hne, rfl⟩
      · exact ⟨[], .inl rfl, by simp⟩
      · exact ⟨[58] ++ p, .inr ⟨p, hne, hp, rfl⟩, by simp⟩
    obtain ⟨cq, hcq⟩ : ∃ cq, (q = [] ∧ cq = []) ∨ ∃ d, d ≠ [] ∧ (∀ x ∈ d, Spec.digitByte x) ∧ q = [58] ++ d ∧
        cq = [([], Py.toU q)] := by
      rcases hq with rfl | ⟨d, h1, h2, rfl⟩
      · exact ⟨[], .inl ⟨rfl, rfl⟩⟩
      · exact ⟨_, .inr ⟨d, h1, h2, rfl, rfl⟩⟩
    exact ⟨_, Py.toU e, _, [], _, ⟨rfl, rfl, rfl⟩, ⟨Py.toU (q ++ e), _, _, (hl1 _ _ _ _).2 ⟨d, q ++ e, by simp, rfl, hd, rfl⟩,
      ⟨Py.toU e, _, [], (hl2 _ _ _ _).2 ⟨q, e, rfl, rfl, hcq⟩, ⟨Py.toU e, [], [], ⟨he, rfl, rfl⟩, ⟨rfl, rfl⟩, rfl⟩, rfl⟩,
      rfl⟩, rfl⟩
  · rintro ⟨caps, rest, m, c1, c2, ⟨-, rfl, rfl⟩, ⟨m, c3, c4, h1, ⟨m', c5, c6, h2, ⟨m'', c7, c8, ⟨he, rfl, rfl⟩,
      ⟨rfl, rfl⟩, rfl⟩, rfl⟩, rfl⟩, rfl⟩
    obtain ⟨d, u, rfl, rfl, hd, rfl⟩ := (hl1 _ _ _ _).1 h1
    obtain ⟨q, e, rfl, rfl, hq⟩ := (hl2 _ _ _ _).1 h2
    have he' : e = [] ∨ e = [10] := by
      rcases he with he | he
      · exact .inl (toU_inj.1 (he.trans rfl))
      · exact .inr (toU_inj.1 (he.trans rfl))
    have hs : d ++ (q ++ e) = d ++ q ∨ d ++ (q ++ e) = d ++ q ++ [10] := by
      rcases he' with rfl | rfl
      · exact .inl (by simp)
      · exact .inr (by simp)
    rcases hq with ⟨rfl, rfl⟩ | ⟨p, hp, hp', rfl, rfl⟩
    · exact ⟨_, d, [], hs, hd, by simp, .inl ⟨rfl, by simp⟩⟩
    · exact ⟨_, d, p, hs, hd, hp', .inr ⟨hp, by simp⟩⟩

example : ∃ r, Re.compile hostPattern = some r ∧ (∃ caps, r.Match (Py.toU b!"[::1]:80") caps) ∧
    (∃ caps, r.Match (Py.toU b!"a-b.c\n") caps) ∧ ¬ ∃ caps, r.Match (Py.toU b!"a_b") caps := by
  obtain ⟨r, hr, h⟩ := C126_host
  exact ⟨r, hr, (h _).1 (by decide), (h _).1 (by decide), fun hn => absurd ((h _).2 hn) (by decide)⟩

/-! ## Fields of a query -/

theorem splitFieldsN_append {p : UStr} (hp : ∀ c ∈ p, isFieldSep c = false) (sep : Nat)
    (hs : isFieldSep sep = true) (r : UStr) (n : Nat) : splitFieldsN (p ++ sep :: r) (n + 1) = p :: splitFieldsN r n := by
  induction p with
  | nil => simp [splitFieldsN, hs]
  | cons c t ih =>
    simp only [List.cons_append, splitFieldsN, hp c (by simp), Bool.false_eq_true, if_false,
      ih (fun c hc => hp c (by simp [hc])), consFirst]

theorem splitFieldsN_single {p : UStr} (hp : ∀ c ∈ p, isFieldSep c = false) : ∀ n, splitFieldsN p n = [p] := by
  induction p with
  | nil => intro n; cases n <;> rfl
  | cons c t ih =>
    intro n
    cases n with
    | zero => rfl
    | succ n =>
      simp only [splitFieldsN, hp c (by simp), Bool.false_eq_true, if_false,
        ih (fun c hc => hp c (by simp [hc])), consFirst]

/-- `[&;]`. -/
def sepRe : Re := .seq (.set ⟨false, [(38, 38), (59, 59)]⟩) .empty

theorem sepRe_eats (f : Bool) (s rest : List Nat) (caps : Caps) :
    sepRe.Eats f s rest caps ↔ ∃ x, s = x :: rest ∧ isFieldSep x = true ∧ caps = [] := by
  have hx : ∀ x, (CharSet.mk false [(38, 38), (59, 59)]).has x = isFieldSep x := by
    intro x
    simp only [CharSet.has, isFieldSep, List.any_cons, List.any_nil, Bool.or_false, Bool.bne_false]
    rw [Bool.eq_iff_iff]
    simp only [Bool.or_eq_true, Bool.and_eq_true, decide_eq_true_eq]
    omega
  constructor
  · rintro ⟨m, c1, c2, ⟨x, rfl, h, rfl⟩, ⟨rfl, rfl⟩, rfl⟩
    exact ⟨x, rfl, (hx x).symm.trans h, rfl⟩
  · rintro ⟨x, rfl, h, rfl⟩
    exact ⟨rest, [], [], ⟨x, rfl, (hx x).trans h, rfl⟩, ⟨rfl, rfl⟩, rfl⟩

/-- What the functions of the model do, as one function. -/
def splitMax (s : UStr) : Option Nat → List UStr
  | none => splitFields s
  | some n => splitFieldsN s n

theorem splitMax_iff (n : Option Nat) (f : Bool) (s : UStr) (ps : List UStr) :
    splitMax s n = ps ↔ sepRe.Split n f s ps := by
  constructor
  · rintro rfl
    suffices ∀ k n f (s : UStr), s.length < k → sepRe.Split n f s (splitMax s n) from this _ n f s (Nat.lt_succ_self _)
    clear n f s
    intro k
    induction k with
    | zero => intro n f s h; omega
    | succ k ih =>
      intro n f s hk
      by_cases h0 : n = some 0
      · subst h0
        rw [show splitMax s (some 0) = [s] by cases s <;> rfl]
        exact .full
      · have hsp := (List.takeWhile_append_dropWhile (p := fun c => !isFieldSep c) (l := s))
        have ha : ∀ c ∈ s.takeWhile (fun c => !isFieldSep c), isFieldSep c = false := by
          intro c hc
          simpa using mem_takeWhile hc
        cases hd : s.dropWhile (fun c => !isFieldSep c) with
        | nil =>
          rw [hd, List.append_nil] at hsp
          rw [hsp] at ha
          have e : splitMax s n = [s] := by
            cases n with
            | none => exact splitFields_single ha
            | some n => exact splitFieldsN_single ha n
          rw [e]
          refine .last ?_
          rintro a b rfl ⟨rest, caps, h⟩
          obtain ⟨x, rfl, hx, -⟩ := (sepRe_eats _ _ _ _).1 h
          rw [ha x (by simp)] at hx
          cases hx
        | cons x t =>
          have hx : isFieldSep x = true := by
            have := List.head?_dropWhile_not (fun c => !isFieldSep c) s
            rw [hd] at this
            simpa using this
          rw [hd] at hsp
          generalize s.takeWhile (fun c => !isFieldSep c) = a at hsp ha
          subst hsp
          have e : splitMax (a ++ x :: t) n = a :: splitMax t (n.map (· - 1)) := by
            cases n with
            | none => exact splitFields_append ha x hx t
            | some n =>
              cases n with
              | zero => exact absurd rfl h0
              | succ n => exact splitFieldsN_append ha x hx t n
          rw [e]
          refine .cut (m := [x]) (rest := t) (caps := []) h0 rfl (by simp) ?_ ((sepRe_eats _ _ _ _).2 ⟨x, rfl, hx, rfl⟩)
            (ih _ _ _ ?_)
          · rintro a1 a2 rfl hne ⟨rest', caps', h⟩
            obtain ⟨y, hy, hy', -⟩ := (sepRe_eats _ _ _ _).1 h
            cases a2 with
            | nil => exact hne rfl
            | cons z a2 =>
              cases hy
              rw [ha y (by simp)] at hy'
              cases hy'
          · simp only [List.length_append, List.length_cons] at hk
            omega
  · intro h
    induction h with
    | full => rename_i s; cases s <;> rfl
    | @last n f s h =>
      have ha : ∀ c ∈ s, isFieldSep c = false := by
        intro c hc
        obtain ⟨a, b, rfl⟩ := List.append_of_mem hc
        cases hs : isFieldSep c with
        | false => rfl
        | true => exact absurd ⟨b, [], (sepRe_eats _ _ _ _).2 ⟨c, rfl, hs, rfl⟩⟩ (h a (c :: b) rfl)
      cases n with
      | none => exact splitFields_single ha
      | some n => exact splitFieldsN_single ha n
    | @cut n f s a m rest caps ps h0 hs hm ha hh _ ih =>
      subst hs
      obtain ⟨x, hx, hx', -⟩ := (sepRe_eats _ _ _ _).1 hh
      have hm' : m = [x] := by
        have : m ++ rest = [x] ++ rest := hx
        exact List.append_cancel_right this
      subst hm'
      have ha' : ∀ c ∈ a, isFieldSep c = false := by
        intro c hc
        obtain ⟨a1, a2, rfl⟩ := List.append_of_mem hc
        cases hs : isFieldSep c with
        | false => rfl
        | true =>
          exact absurd ⟨_, [], (sepRe_eats _ _ _ _).2 ⟨c, rfl, hs, rfl⟩⟩ (ha a1 (c :: a2) rfl (by simp))
      rw [← ih]
      cases n with
      | none => exact splitFields_append ha' x hx' rest
      | some n =>
        cases n with
        | zero => exact absurd rfl h0
        | succ n => exact splitFieldsN_append ha' x hx' rest n

/-- `FIELDS_MATCH.split`, without and with a limit. -/
theorem C126_fields : ∃ r, Re.compile fieldsPattern = some r ∧
    (∀ (s : UStr) (ps : List UStr), splitFields s = ps ↔ r.Split none true s ps) ∧
    ∀ (n : Nat) (s : UStr) (ps : List UStr), splitFieldsN s n = ps ↔ r.Split (some n) true s ps :=
  ⟨sepRe, by decide +kernel, fun s ps => splitMax_iff none true s ps, fun n s ps => splitMax_iff (some n) true s ps⟩

example : ∃ r, Re.compile fieldsPattern = some r ∧
    r.Split none true (Py.toU b!"a&;b") [Py.toU b!"a", [], Py.toU b!"b"] ∧
    r.Split (some 1) true (Py.toU b!"a&;b") [Py.toU b!"a", Py.toU b!";b"] := by
  obtain ⟨r, hr, h, h'⟩ := C126_fields
  exact ⟨r, hr, (h _ _).1 (by decide), (h' _ _ _).1 (by decide)⟩

/-! ## Character references -/

/-- The text between `&` and `;`. -/
def refRe : Re :=
  .seq (.rep (litRe 35) 0 (some 1)) (.seq (.rep (.set ⟨false, [(120, 120), (88, 88)]⟩) 0 (some 1)) (.seq
    (.alt (.seq (.rep (.set ⟨false, [(48, 57), (97, 102), (65, 70)]⟩) 1 none) .empty)
      (.seq (.rep (.set ⟨false, wordRanges⟩) 1 (some 8)) .empty)) .empty))

theorem refRe_lang : Lang refRe (fun t caps => Spec.RefBody t ∧ caps = []) := by
  have hx : ∀ x : UInt8, (CharSet.mk false [(120, 120), (88, 88)]).has x.toNat = true ↔ x = 120 ∨ x = 88 := by
    intro x
    have := forall_u8 (fun x => decide ((CharSet.mk false [(120, 120), (88, 88)]).has x.toNat = true ↔ x = 120 ∨ x = 88))
      (by decide +kernel) x
    exact of_decide_eq_true this
  have hh : ∀ x : UInt8, (CharSet.mk false [(48, 57), (97, 102), (65, 70)]).has x.toNat = true ↔ ∃ v, Spec.HexDigit x v := by
    intro x
    rw [← hexDigit_bool]
    have := forall_u8 (fun x => decide ((CharSet.mk false [(48, 57), (97, 102), (65, 70)]).has x.toNat = true ↔
      isHexDigit x = true)) (by decide +kernel) x
    exact of_decide_eq_true this
  have hw : ∀ x : UInt8, (CharSet.mk false wordRanges).has x.toNat = true ↔ Spec.Word x := by
    intro x
    rw [has_word, word_bool]
  refine ((Lang.lit 35).opt.seq ((Lang.set hx).opt.seq ((((Lang.rep hh 1 none).seq Lang.empty).alt
    ((Lang.rep hw 1 (some 8)).seq Lang.empty)).seq Lang.empty))).of fun t caps => ?_
  constructor
  · rintro ⟨a1, a2, c1, c2, rfl, h1, ⟨a3, a4, c3, c4, rfl, h2, ⟨a5, a6, c5, c6, rfl, h3, ⟨rfl, rfl⟩, rfl⟩, rfl⟩, rfl⟩
    have e1 : (a1 = [] ∨ a1 = [35]) ∧ c1 = [] := by
      rcases h1 with ⟨rfl, rfl⟩ | ⟨rfl, rfl⟩ <;> simp
    have e2 : (a3 = [] ∨ a3 = [120] ∨ a3 = [88]) ∧ c3 = [] := by
      rcases h2 with ⟨rfl, rfl⟩ | ⟨x, rfl, rfl | rfl, rfl⟩ <;> simp
    have e3 : (a5 ≠ [] ∧ ((∀ c ∈ a5, ∃ v, Spec.HexDigit c v) ∨ (a5.length ≤ 8 ∧ ∀ c ∈ a5, Spec.Word c))) ∧ c5 = [] := by
      rcases h3 with ⟨x, y, d1, d2, rfl, ⟨k1, -, k2, rfl⟩, ⟨rfl, rfl⟩, rfl⟩ | ⟨x, y, d1, d2, rfl, ⟨k1, k3, k2, rfl⟩, ⟨rfl, rfl⟩, rfl⟩
      · rw [List.append_nil]
        exact ⟨⟨List.length_pos_iff.1 k1, .inl k2⟩, rfl⟩
      · rw [List.append_nil]
        exact ⟨⟨List.length_pos_iff.1 k1, .inr ⟨k3 8 rfl, k2⟩⟩, rfl⟩
    obtain ⟨e1, rfl⟩ := e1
    obtain ⟨e2, rfl⟩ := e2
    obtain ⟨⟨e3, e4⟩, rfl⟩ := e3
    exact ⟨⟨a1, a3, a5, e1, e2, e3, e4, by simp⟩, rfl⟩
  · rintro ⟨⟨h, x, w, e1, e2, e3, e4, rfl⟩, rfl⟩
    refine ⟨h, x ++ w, [], [], by simp, ?_, ⟨x, w, [], [], rfl, ?_, ⟨w, [], [], [], by simp, ?_, ⟨rfl, rfl⟩, rfl⟩, rfl⟩, rfl⟩
    · rcases e1 with rfl | rfl
      · exact .inl ⟨rfl, rfl⟩
      · exact .inr ⟨rfl, rfl⟩
    · rcases e2 with rfl | rfl | rfl
      · exact .inl ⟨rfl, rfl⟩
      · exact .inr ⟨120, rfl, .inl rfl, rfl⟩
      · exact .inr ⟨88, rfl, .inr rfl, rfl⟩
    · rcases e4 with e4 | ⟨e4, e5⟩
      · exact .inl ⟨w, [], [], [], by simp, ⟨List.length_pos_iff.2 e3, nofun, e4, rfl⟩, ⟨rfl, rfl⟩, rfl⟩
      · exact .inr ⟨w, [], [], [], by simp, ⟨List.length_pos_iff.2 e3, fun k hk => by cases hk; exact e4, e5, rfl⟩,
          ⟨rfl, rfl⟩, rfl⟩

/-- The whole expression. -/
def entityRe : Re := .seq (litRe 38) (.seq (.group [] refRe) (.seq (litRe 59) .empty))

theorem entityRe_lang : Lang entityRe
    (fun t caps => ∃ b, Spec.RefBody b ∧ t = [38] ++ b ++ [59] ∧ caps = [([], Py.toU b)]) := by
  refine ((Lang.lit 38).seq ((refRe_lang.group []).seq ((Lang.lit 59).seq Lang.empty))).of fun t caps => ?_
  constructor
  · rintro ⟨a1, a2, c1, c2, rfl, ⟨rfl, rfl⟩, ⟨a3, a4, c3, c4, rfl, ⟨c, ⟨h, rfl⟩, rfl⟩, ⟨a5, a6, c5, c6, rfl, ⟨rfl, rfl⟩,
      ⟨rfl, rfl⟩, rfl⟩, rfl⟩, rfl⟩
    exact ⟨a3, h, by simp, rfl⟩
  · rintro ⟨b, h, rfl, rfl⟩
    exact ⟨[38], b ++ [59], [], _, by simp, ⟨rfl, rfl⟩, ⟨b, [59], _, [], rfl, ⟨[], ⟨h, rfl⟩, rfl⟩,
      ⟨[59], [], [], [], rfl, ⟨rfl, rfl⟩, ⟨rfl, rfl⟩, rfl⟩, rfl⟩, rfl⟩

/-- What `_replace_entity` gives for a match: the character, or the text of the match. -/
def entityRepl (caps : Caps) (text out : List Nat) : Prop :=
  ∃ b v, caps = [([], Py.toU b)] ∧ replaceEntity b = .ok v ∧
    out = (match v with
      | some c => [c.toNat]
      | none => text)

theorem entityRe_starts (f : Bool) (s : Bytes) : (∃ rest caps, entityRe.Eats f (Py.toU s) rest caps) ↔ Spec.StartsRef s := by
  constructor
  · rintro ⟨rest, caps, h⟩
    obtain ⟨t, u, rfl, -, b, hb, rfl, -⟩ := (entityRe_lang _ _ _ _).1 h
    exact ⟨b, u, hb, rfl⟩
  · rintro ⟨b, r, hb, rfl⟩
    exact ⟨_, _, (entityRe_lang _ _ _ _).2 ⟨_, r, rfl, rfl, b, hb, rfl, rfl⟩⟩

theorem toU_append (a b : Bytes) : Py.toU (a ++ b) = Py.toU a ++ Py.toU b := List.map_append ..

theorem unescaped_sub {s o : Bytes} (h : Spec.Unescaped entityNames s o) : ∀ f, entityRe.Sub entityRepl f (Py.toU s) (Py.toU o) := by
  induction h with
  | nil => exact fun f => .nil
  | plain hn _ ih => exact fun f => .skip (fun h => hn ((entityRe_starts f _).1 h)) (ih false)
  | @ref b o t r hb ho _ ih =>
    intro f
    rw [toU_append, toU_append o]
    obtain ⟨v, hv, rfl⟩ := (replaceEntity_iff b o).2 ho
    refine .hit (caps := [([], Py.toU b)]) (by simp [Py.toU]) ?_ ⟨b, v, rfl, hv, ?_⟩ (ih false)
    · rw [← toU_append]
      exact (entityRe_lang _ _ _ _).2 ⟨_, t, rfl, rfl, b, hb, rfl, rfl⟩
    · cases v <;> rfl

theorem sub_unescaped {f : Bool} {s o : List Nat} (h : entityRe.Sub entityRepl f s o) :
    ∀ s', s = Py.toU s' → ∃ o', o = Py.toU o' ∧ Spec.Unescaped entityNames s' o' := by
  induction h with
  | nil =>
    intro s' hs
    cases s' with
    | nil => exact ⟨[], rfl, .nil⟩
    | cons => cases hs
  | @skip f c t o hn _ ih =>
    intro s' hs
    obtain ⟨c', t', rfl, rfl, rfl⟩ := (toU_cons_iff _ _ _).1 hs.symm
    obtain ⟨o', rfl, h⟩ := ih t' rfl
    exact ⟨c' :: o', rfl, .plain (fun h => hn ((entityRe_starts f (c' :: t')).2 h)) h⟩
  | @hit f m rest caps o o' hm he hr _ ih =>
    intro s' hs
    rw [hs] at he
    obtain ⟨t, u, rfl, rfl, b, hb, rfl, rfl⟩ := (entityRe_lang _ _ _ _).1 he
    obtain ⟨o2, rfl, h⟩ := ih u rfl
    rw [toU_append] at hs
    cases List.append_cancel_right hs
    obtain ⟨b', v, hb', hv, rfl⟩ := hr
    have : b' = b := by
      have := (List.cons.inj hb').1
      exact (toU_inj.1 (Prod.mk.inj this).2).symm
    subst this
    cases v with
    | none => exact ⟨([38] ++ b' ++ [59]) ++ o2, by rw [toU_append ([38] ++ b' ++ [59])],
        .ref hb ((replaceEntity_iff _ _).1 ⟨_, hv, rfl⟩) h⟩
    | some c => exact ⟨[c] ++ o2, rfl, .ref hb ((replaceEntity_iff _ _).1 ⟨_, hv, rfl⟩) h⟩

/-- `_entity_re` and `_entity_re.sub`: what it matches and what its group is, and the result of the substitution. -/
theorem C126_entity : ∃ r, Re.compile entityPattern = some r ∧
    (∀ f (s : Bytes) rest caps, r.Eats f (Py.toU s) rest caps ↔
      ∃ b t, isEntityBody b = true ∧ s = [38] ++ b ++ [59] ++ t ∧ rest = Py.toU t ∧ caps = [([], Py.toU b)]) ∧
    ∀ (s o : Bytes), unescapeEntities s = .ok o ↔ r.Sub entityRepl true (Py.toU s) (Py.toU o) := by
  refine ⟨entityRe, by decide +kernel, ?_, ?_⟩
  · intro f s rest caps
    rw [entityRe_lang]
    constructor
    · rintro ⟨t, u, rfl, rfl, b, hb, rfl, rfl⟩
      exact ⟨b, u, (entityBody_iff b).2 hb, rfl, rfl, rfl⟩
    · rintro ⟨b, u, hb, rfl, rfl, rfl⟩
      exact ⟨_, u, rfl, rfl, b, (entityBody_iff b).1 hb, rfl, rfl⟩
  · intro s o
    rw [C62_partial, ← entityNames_html]
    constructor
    · intro h
      exact unescaped_sub h true
    · intro h
      obtain ⟨o', e, h⟩ := sub_unescaped h s rfl
      cases toU_inj.1 e
      exact h

example : ∃ r, Re.compile rfc1123Pattern = some r ∧ r.Match (Py.toU b!"Sun, 06 Nov 1994 08:49:37 GMT")
    (Spec.dateCaps [b!"day", b!"mon", b!"year", b!"hour", b!"min", b!"sec"]
      ⟨b!"1994", b!"Nov", b!"06", b!"08", b!"49", b!"37"⟩) ∧
    ¬ ∃ caps, r.Match (Py.toU b!"Sun, 6 Nov 1994 08:49:37 GMT") caps := by
  obtain ⟨r, hr, h⟩ := C126_rfc1123
  exact ⟨r, hr, (h _ _).2 (by decide), fun ⟨c, hn⟩ => absurd ((h _ _).1 hn) (by
    rw [show matchRfc1123 b!"Sun, 6 Nov 1994 08:49:37 GMT" = none by decide]; simp)⟩

example : ∃ r, Re.compile rfc850Pattern = some r ∧ r.Match (Py.toU b!"Sunday, 06-Nov-94 08:49:37 GMT")
    (Spec.dateCaps [b!"day", b!"mon", b!"year", b!"hour", b!"min", b!"sec"]
      ⟨b!"94", b!"Nov", b!"06", b!"08", b!"49", b!"37"⟩) := by
  obtain ⟨r, hr, h⟩ := C126_rfc850
  exact ⟨r, hr, (h _ _).2 (by decide)⟩

example : ∃ r, Re.compile entityPattern = some r ∧ r.Sub entityRepl true (Py.toU b!"a&lt;&#x62;&zzz;&") (Py.toU b!"a<b&zzz;&") := by
  obtain ⟨r, hr, -, h⟩ := C126_entity
  exact ⟨r, hr, (h _ _).1 rfl⟩

/-- The reader of expressions, on expressions that the package does not have. -/
example : Re.compile b!"a{2" = none ∧ Re.compile b!"a**" = none ∧ Re.compile b!"(a" = none ∧ Re.compile b!"a)" = none ∧
    Re.compile b!"a|b." = some (.alt (.seq (litRe 97) .empty) (.seq (litRe 98) (.seq (.set ⟨true, [(10, 10)]⟩) .empty))) ∧
    Re.compileX b!"a #c\n[ ]" = some (.seq (litRe 97) (.seq (litRe 32) .empty)) := by
  decide +kernel

end Verif
