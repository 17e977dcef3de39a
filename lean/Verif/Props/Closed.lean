import Verif.Props.ListText
import Verif.Props.QueryMap
import Verif.Model.Stream
/-!
# A closed stream (C117), `escape_uri_path` (C55), `repr` of a byte string (C82), characters as values (C109)
-/

namespace Verif
open Spec Mem

/-! ### C117 -/

section
variable {σ : Type}

/-- **C117, the part that holds**: of the bytes that have been put back, a closed stream still gives any number that it
has, and keeps the rest; `next` gives them all.  (As for every stream, the same amount may be put back 40 times in
a row only.)  Missing: asking for more than there is (`C117_refuted`). -/
theorem C117_partial (s : LazyStream σ) (n : Nat) (h : n ≤ s.leftover.length)
    (hist : (s.history.take 49).count (s.leftover.length - n) < 40) :
    (∃ s', s.close.read (some n) = (.ok (s.leftover.take n), s') ∧ s'.leftover = s.leftover.drop n ∧
      s'.position = s.position + n) ∧
    (s.leftover ≠ [] → ∃ s', s.close.next = (.ok (some s.leftover), s') ∧ s'.leftover = []) := by
  obtain ⟨p, l, len, pos, hi⟩ := s
  simp only at h hist
  refine ⟨?_, fun hl => ⟨_, by simp only [LazyStream.close, LazyStream.next]; exact if_pos hl, rfl⟩⟩
  simp only [LazyStream.close, LazyStream.read]
  rw [if_neg (by omega)]
  simp only [LazyStream.size, Int.toNat_natCast]
  by_cases h0 : n = 0
  · subst h0
    unfold LazyStream.readLoop
    exact ⟨_, by rw [if_pos rfl]; rfl, by simp, by simp⟩
  · have hl : l ≠ [] := by
      rintro rfl
      simp at h
      omega
    unfold LazyStream.readLoop
    rw [if_neg h0]
    simp only [LazyStream.next]
    rw [if_pos hl]
    simp only [LazyStream.unget]
    have hz : ∀ (st : LazyStream Closed) (acc : Bytes) f, LazyStream.readLoop f 0 acc st = (.ok acc, st) := by
      intro st acc f
      cases f <;> simp [LazyStream.readLoop]
    have hm : n - (l.take n).length = 0 := by simp [List.length_take]; omega
    by_cases hd : l.drop n = []
    · rw [if_pos hd]
      simp only [hm, hz]
      have : l.length = n := by
        have := List.drop_eq_nil_iff.1 hd
        omega
      exact ⟨_, rfl, hd.symm, by simp [this]⟩
    · rw [if_neg hd]
      have hc : ¬ ((List.filter (fun x => decide (x = (l.drop n).length)) ((l.drop n).length :: hi.take 49)).length > 40) := by
        rw [List.filter_cons_of_pos (by simp), List.length_cons, List.length_drop]
        have : (List.filter (fun x => decide (x = l.length - n)) (hi.take 49)).length = (hi.take 49).count (l.length - n) := by
          rw [List.count_eq_countP, List.countP_eq_length_filter]
          rfl
        omega
      rw [if_neg hc]
      simp only [hm, hz]
      refine ⟨_, rfl, by simp, ?_⟩
      simp only [List.length_drop]
      omega

/-- **C117 is false of the code**: asking a closed stream for everything, or for more than it has, raises `TypeError`,
and the bytes that were there are lost. -/
theorem C117_refuted (s : LazyStream σ) :
    (s.length = none → ∃ s', s.close.read none = (.error .typeError, s') ∧ s'.leftover = []) ∧
    (∀ n : Nat, s.leftover.length < n → ∃ s', s.close.read (some n) = (.error .typeError, s') ∧ s'.leftover = []) := by
  obtain ⟨p, l, len, pos, hi⟩ := s
  constructor
  · intro hlen
    simp only at hlen
    subst hlen
    simp only [LazyStream.close, LazyStream.read, LazyStream.size, Producer.size]
    unfold LazyStream.joinAll
    simp only [LazyStream.next]
    by_cases hl : l = []
    · subst hl
      simp only [ne_eq, not_true_eq_false, if_false, Producer.next]
      refine ⟨_, rfl, ?_⟩
      rfl
    · rw [if_pos hl]
      obtain ⟨k, hk⟩ : ∃ k, l.length = k + 1 := ⟨l.length - 1, by have := List.length_pos_of_ne_nil hl; omega⟩
      simp only [hk, Nat.add_zero]
      unfold LazyStream.joinAll
      simp only [LazyStream.next, ne_eq, not_true_eq_false, if_false, Producer.next]
      refine ⟨_, rfl, ?_⟩
      rfl
  · intro n hn
    simp only at hn
    simp only [LazyStream.close, LazyStream.read]
    rw [if_neg (by omega)]
    simp only [LazyStream.size, Int.toNat_natCast, Producer.size]
    unfold LazyStream.readLoop
    rw [if_neg (by omega)]
    simp only [LazyStream.next]
    by_cases hl : l = []
    · subst hl
      simp only [ne_eq, not_true_eq_false, if_false, Producer.next]
      refine ⟨_, rfl, ?_⟩
      rfl
    · rw [if_pos hl]
      have hd : l.drop n = [] := List.drop_eq_nil_iff.2 (by omega)
      simp only [LazyStream.unget, hd, if_true]
      obtain ⟨k, hk⟩ : ∃ k, l.length = k + 1 := ⟨l.length - 1, by have := List.length_pos_of_ne_nil hl; omega⟩
      simp only [hk, Nat.add_zero]
      unfold LazyStream.readLoop
      rw [if_neg (by simp only [List.length_take]; omega)]
      simp only [LazyStream.next, ne_eq, not_true_eq_false, if_false, Producer.next]
      refine ⟨_, rfl, ?_⟩
      rfl

end

/-- A stream with three bytes put back, closed. -/
def closedSample : LazyStream Closed := LazyStream.close (σ := Source) { producer := ⟨[b!"more"]⟩, leftover := b!"abc" }

example : (closedSample.read (some 2)).1.toOption = some b!"ab" ∧ (closedSample.read (some 4)).1.toOption = none ∧
    (closedSample.read none).1.toOption = none := by decide +kernel

/-! ### C55 -/

/-- **C55**, `escape_uri_path`: the bytes (of the UTF-8 form, for `unicode`), escaped; `%` too if asked for. -/
theorem C55_escape (C : Codecs) (s t : Bytes) (pct : Bool) :
    escapeUriPath C (.b s) pct = .ok t ↔ Escaped (fun c => pathChar c && !(pct && c == 37)) s t := by
  have key : ∀ c, quoteKeeps (if pct then pathSafe else pathSafePct) c ↔
      (pathChar c && !(pct && c == 37)) = true := by
    intro c
    cases pct with
    | true =>
      have := forall_u8 (fun c => decide (quoteKeeps pathSafe c ↔ (pathChar c && !(true && c == 37)) = true)) (by decide +kernel) c
      exact of_decide_eq_true this
    | false => simpa using pathKeeps_iff c
  rw [escaped_iff key]
  unfold escapeUriPath
  simp only [Except.ok.injEq]
  exact eq_comm

theorem C55_escape_text (C : Codecs) (u : UStr) (s : Bytes) (h : C.encode b!"utf-8" u = .ok s) (pct : Bool) :
    escapeUriPath C (.u u) pct = escapeUriPath C (.b s) pct := by
  unfold escapeUriPath
  simp only [h]

example : (escapeUriPath pyCodecs (.b b!"/a%20 b?c;d") true).toOption = some b!"/a%2520%20b%3Fc%3Bd" ∧
    (escapeUriPath pyCodecs (.b b!"/a%20 b?c;d") false).toOption = some b!"/a%20%20b%3Fc%3Bd" := by decide +kernel

/-! ### C82 -/

namespace Spec

/-- How Python 2 writes the byte `c` between quotes `q`: a printable character is written as it is, unless it is the
quote or the backslash, which get a backslash; tab, newline and return have letters; any other byte is written with two
hexadecimal digits in lower case. -/
inductive PyChar (q : UInt8) : Bytes → UInt8 → Prop where
  | plain (c) : 32 ≤ c → c ≤ 126 → c ≠ q → c ≠ 92 → PyChar q [c] c
  | quote : PyChar q [92, q] q
  | backslash : PyChar q [92, 92] 92
  | tab : PyChar q b!"\\t" 9
  | newline : PyChar q b!"\\n" 10
  | ret : PyChar q b!"\\r" 13
  | hex (c hi lo) : (c < 32 ∨ 126 < c) → c ≠ 9 → c ≠ 10 → c ≠ 13 → hexValue hi = some (c / 16) → hexValue lo = some (c % 16) →
      ¬ (65 ≤ hi ∧ hi ≤ 90) → ¬ (65 ≤ lo ∧ lo ≤ 90) → PyChar q (b!"\\x" ++ [hi, lo]) c

inductive PyBody (q : UInt8) : Bytes → Bytes → Prop where
  | nil : PyBody q [] []
  | cons {e c t s} : PyChar q e c → PyBody q t s → PyBody q (e ++ t) (c :: s)

/-- The literal that Python 2 writes for a byte string: in single quotes, but in double quotes if there is a single
quote in it and no double quote. -/
inductive PyLit : Bytes → Bytes → Prop where
  | double {b s} : 39 ∈ s → 34 ∉ s → PyBody 34 b s → PyLit (34 :: (b ++ [34])) s
  | single {b s} : 39 ∉ s ∨ 34 ∈ s → PyBody 39 b s → PyLit (39 :: (b ++ [39])) s

end Spec

theorem pyChar_repr (q c : UInt8) (hq : q = 34 ∨ q = 39) : PyChar q (reprByte q c) c := by
  have key : ∀ c : UInt8, (¬ (c = q ∨ c = 92)) → c ≠ 9 → c ≠ 10 → c ≠ 13 → (c < 32 ∨ 127 ≤ c) →
      let hi := (if c / 16 < 10 then 48 + c / 16 else 87 + c / 16)
      let lo := (if c % 16 < 10 then 48 + c % 16 else 87 + c % 16)
      hexValue hi = some (c / 16) ∧ hexValue lo = some (c % 16) ∧ ¬ (65 ≤ hi ∧ hi ≤ 90) ∧ ¬ (65 ≤ lo ∧ lo ≤ 90) := by
    intro c _ _ _ _ _
    have := forall_u8 (fun c =>
      let hi := (if c / 16 < 10 then 48 + c / 16 else 87 + c / 16)
      let lo := (if c % 16 < 10 then 48 + c % 16 else 87 + c % 16)
      decide (hexValue hi = some (c / 16) ∧ hexValue lo = some (c % 16) ∧ ¬ (65 ≤ hi ∧ hi ≤ 90) ∧ ¬ (65 ≤ lo ∧ lo ≤ 90)))
      (by decide +kernel) c
    exact of_decide_eq_true this
  unfold reprByte
  by_cases h1 : c = q ∨ c = 92
  · rw [if_pos h1]
    rcases h1 with rfl | rfl
    · exact .quote
    · exact .backslash
  rw [if_neg h1]
  by_cases h2 : c = 9
  · rw [if_pos h2]; subst h2; exact .tab
  rw [if_neg h2]
  by_cases h3 : c = 10
  · rw [if_pos h3]; subst h3; exact .newline
  rw [if_neg h3]
  by_cases h4 : c = 13
  · rw [if_pos h4]; subst h4; exact .ret
  rw [if_neg h4]
  by_cases h5 : c < 32 ∨ 127 ≤ c
  · rw [if_pos h5]
    obtain ⟨a, b, d, e⟩ := key c h1 h2 h3 h4 h5
    refine .hex c _ _ ?_ h2 h3 h4 a b d e
    rcases h5 with h | h
    · exact .inl h
    · right; rw [UInt8.lt_iff_toNat_lt]; rw [UInt8.le_iff_toNat_le] at h; simp at h ⊢; omega
  · rw [if_neg h5]
    rw [not_or, UInt8.not_lt, UInt8.not_le] at h5
    rw [not_or] at h1
    refine .plain c h5.1 ?_ h1.1 h1.2
    have := h5.2
    rw [UInt8.lt_iff_toNat_lt] at this; rw [UInt8.le_iff_toNat_le]; simp at this ⊢; omega

theorem lowerHex {a v : UInt8} (h : hexValue a = some v) (ha : ¬ (65 ≤ a ∧ a ≤ 90)) : (if v < 10 then 48 + v else 87 + v) = a := by
  have := forall_u8 (fun a => decide (¬ (65 ≤ a ∧ a ≤ 90) →
    (match hexValue a with | none => true | some v => (if v < 10 then 48 + v else 87 + v) == a) = true)) (by decide +kernel) a
  have := of_decide_eq_true this ha
  rw [h] at this
  exact beq_iff_eq.1 this

theorem pyChar_unique {q c : UInt8} {e : Bytes} (hq : q = 34 ∨ q = 39) (h : PyChar q e c) : reprByte q c = e := by
  unfold reprByte
  cases h with
  | plain _ h1 h2 h3 h4 =>
    rw [UInt8.le_iff_toNat_le] at h1 h2
    have e9 : c ≠ 9 := by rintro rfl; revert h1; decide
    have e10 : c ≠ 10 := by rintro rfl; revert h1; decide
    have e13 : c ≠ 13 := by rintro rfl; revert h1; decide
    rw [if_neg (by simp [h3, h4]), if_neg e9, if_neg e10, if_neg e13, if_neg]
    rw [UInt8.lt_iff_toNat_lt, UInt8.le_iff_toNat_le]
    simp at h1 h2 ⊢
    omega
  | quote => rw [if_pos (.inl rfl)]
  | backslash => rw [if_pos (.inr rfl)]
  | tab => rcases hq with rfl | rfl <;> decide
  | newline => rcases hq with rfl | rfl <;> decide
  | ret => rcases hq with rfl | rfl <;> decide
  | hex _ hi lo h1 h2 h3 h4 h5 h6 h7 h8 =>
    have e1 : ¬ (c = q ∨ c = 92) := by
      rintro (rfl | rfl)
      · rcases hq with rfl | rfl <;> revert h1 <;> decide
      · revert h1; decide
    rw [if_neg e1, if_neg h2, if_neg h3, if_neg h4, if_pos]
    · simp only [List.map_cons, List.map_nil, lowerHex h5 h7, lowerHex h6 h8]
    · rw [UInt8.lt_iff_toNat_lt, UInt8.lt_iff_toNat_lt] at h1
      rw [UInt8.lt_iff_toNat_lt, UInt8.le_iff_toNat_le]
      simp at h1 ⊢
      omega

/-- **C82** `repr` of a byte string is the literal that Python 2 writes. -/
theorem C82_repr (s t : Bytes) : reprBytes s = t ↔ PyLit t s := by
  have body : ∀ q : UInt8, (q = 34 ∨ q = 39) → ∀ s b, s.flatMap (reprByte q) = b ↔ PyBody q b s := by
    intro q hq s
    induction s with
    | nil =>
      intro b
      constructor
      · rintro rfl; exact .nil
      · intro h; cases h; rfl
    | cons c s ih =>
      intro b
      rw [List.flatMap_cons]
      constructor
      · rintro rfl
        exact .cons (pyChar_repr q c hq) ((ih _).1 rfl)
      · intro h
        cases h with
        | cons h1 h2 => rw [(ih _).2 h2, pyChar_unique hq h1]
  unfold reprBytes
  by_cases h : 39 ∈ s ∧ 34 ∉ s
  · simp only [if_pos h]
    constructor
    · rintro rfl
      exact .double h.1 h.2 ((body 34 (.inl rfl) s _).1 rfl)
    · intro h'
      cases h' with
      | double _ _ hb => rw [(body 34 (.inl rfl) s _).2 hb]; rfl
      | single hn => rcases hn with hn | hn
                     · exact absurd h.1 hn
                     · exact absurd hn h.2
  · simp only [if_neg h]
    constructor
    · rintro rfl
      refine .single ?_ ((body 39 (.inr rfl) s _).1 rfl)
      by_cases h1 : 39 ∈ s
      · right; by_contra h2; exact h ⟨h1, h2⟩
      · exact .inl h1
    · intro h'
      cases h' with
      | double h1 h2 => exact absurd ⟨h1, h2⟩ h
      | single _ hb => rw [(body 39 (.inr rfl) s _).2 hb]; rfl

example : reprBytes b!"it's\t\"" = b!"'it\\'s\\t\"'" ∧ reprBytes b!"it's" = b!"\"it's\"" ∧ reprBytes [0, 255] = b!"'\\x00\\xff'" := by
  decide +kernel

/-! ### C109 -/

/-- **C109** A string given to `setlist` is a list of its characters: after the call the key has one value per character
(for `unicode`, and for native strings when every character is one that the charset accepts), and if one is not
accepted the call raises and changes nothing. -/
theorem C109_setlist {C : Codecs} {enc : Bytes} (hC : ∀ s t, C.strEncode enc s = .ok t → t = s) {m : Mem PyStr PyStr}
    (wf : m.WF) {i : Nat} (hi : i < m.dicts.length) (hc : (m.obj i).cls = .query) (hm : (m.obj i).mutable = true)
    (k : UStr) (s : PyStr) :
    let r := call (queryConv C enc) i (.setlist (.u k) (.atom s)) m
    match s with
    | .u cs => r.1 = .ok () ∧ r.2.abs i (.u k) = some (cs.map fun c => .atom (.u [c]))
    | .b cs => ((∀ c ∈ cs, (C.strEncode enc [c]).isOk) → r.1 = .ok () ∧ r.2.abs i (.u k) = some (cs.map fun c => .atom (.b [c]))) ∧
        ((∃ c ∈ cs, (C.strEncode enc [c]).isOk = false) → (∃ e, r.1 = .error e) ∧ r.2.abs i = m.abs i) := by
  intro r
  obtain ⟨h1, h2⟩ := callQ_works (queryConv_checks hC) wf ⟨hi, hc, hm⟩ (.setlist (.u k) (.atom s))
  have hv : ∀ vs : List (Val PyStr), (∀ v ∈ vs, ∃ w, (queryConv C enc).val v = .ok w) →
      checkAll (queryConv C enc).val vs = .ok () := by
    intro vs hvs
    induction vs with
    | nil => rfl
    | cons v vs ih =>
      obtain ⟨w, hw⟩ := hvs v (by simp)
      simp only [checkAll, hw]
      exact ih fun v hv => hvs v (by simp [hv])
  have hn : ∀ vs : List (Val PyStr), (∃ v ∈ vs, ∃ e, (queryConv C enc).val v = .error e) →
      ∃ e, checkAll (queryConv C enc).val vs = .error e := by
    rintro vs ⟨v, hm, e, he⟩
    induction vs with
    | nil => cases hm
    | cons x vs ih =>
      unfold checkAll
      cases hx : (queryConv C enc).val x with
      | error e' => exact ⟨e', rfl⟩
      | ok y =>
        rcases List.mem_cons.1 hm with rfl | hm
        · rw [hx] at he; cases he
        · exact ih hm
  have hk : (queryConv C enc).key (.u k) = .ok (.u k) := rfl
  cases s with
  | u cs =>
    have hi : (queryConv C enc).iter (.u cs) = .ok (cs.map fun c => .atom (.u [c])) := rfl
    simp only [Call.effectQ, setChecked, hk, hi,
      hv (cs.map fun c => .atom (.u [c])) (by simp only [List.mem_map]; rintro _ ⟨c, _, rfl⟩; exact ⟨_, rfl⟩)] at h1 h2
    exact ⟨h1, by rw [h2]; simp [AMap.upd]⟩
  | b cs =>
    have hi : (queryConv C enc).iter (.b cs) = .ok (cs.map fun c => .atom (.b [c])) := rfl
    simp only [Call.effectQ, setChecked, hk, hi] at h1 h2
    have hval : ∀ c : UInt8, (queryConv C enc).val (.atom (.b [c])) =
        (match C.strEncode enc [c] with | .error e => .error e | .ok t => .ok (.atom (.b t))) := by
      intro c
      simp only [queryConv, bytesToTextV]
      cases C.strEncode enc [c] <;> rfl
    constructor
    · intro hok
      have := hv (cs.map fun c => .atom (.b [c])) (by
        simp only [List.mem_map]
        rintro _ ⟨c, hc, rfl⟩
        have := hok c hc
        rw [hval]
        cases he : C.strEncode enc [c] with
        | error e => rw [he] at this; cases this
        | ok t => exact ⟨_, rfl⟩)
      rw [this] at h1 h2
      exact ⟨h1, by rw [h2]; simp [AMap.upd]⟩
    · rintro ⟨c, hc, hbad⟩
      obtain ⟨e, he⟩ := hn (cs.map fun c => .atom (.b [c])) ⟨_, List.mem_map.2 ⟨c, hc, rfl⟩, by
        rw [hval]
        cases he : C.strEncode enc [c] with
        | error e => exact ⟨e, rfl⟩
        | ok t => rw [he] at hbad; cases hbad⟩
      rw [he] at h1 h2
      exact ⟨⟨e, h1⟩, h2⟩

example :
    let m := (newQueryDict pyCodecs { defaultCharset := b!"utf-8" } (some (.b b!"a=1")) true {}).2
    (call (queryConv pyCodecs b!"utf-8") 0 (.setlist (.u [97]) (.atom (.b b!"xy"))) m).2.abs 0 (.u [97]) =
      some [.atom (.b b!"x"), .atom (.b b!"y")] := by decide +kernel

end Verif
