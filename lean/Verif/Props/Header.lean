import Verif.Proofs.Header2
/-!
# Header parameters: C15, C16, C17
-/

namespace Verif
open Spec

/-- Codecs for examples: no encoding is known. -/
def noCodecs : Codecs where
  decodeReplace _ _ := .error .lookupError
  decode _ _ := .error .lookupError
  strEncode _ _ := .error .lookupError
  encode _ _ := .error .lookupError

/-- Codecs for examples: every encoding is ISO-8859-1. -/
def latinCodecs : Codecs where
  decodeReplace _ b := .ok (Py.toU b)
  decode _ b := .ok (Py.toU b)
  strEncode _ b := if Py.isAscii b then .ok b else .error .unicodeDecodeError
  encode _ u := if u.all (· < 256) then .ok (u.map UInt8.ofNat) else .error .unicodeEncodeError

/-- **C15.** `_parse_header_params` cuts every header at exactly the semicolons that follow
an even number of double quotes in the current piece: there is exactly one such cut, its
pieces joined by `;` are the header, and the result is the list of stripped pieces. -/
theorem C15_split (h : Bytes) :
    ∃ raws, SplitSemis h raws ∧ (∀ raws', SplitSemis h raws' → raws' = raws) ∧
      parseHeaderParams (h.length + 2) (59 :: h) = raws.map Py.strip := by
  obtain ⟨raws, H⟩ := split_exists h
  exact ⟨raws, H, fun r' H' => split_unique _ _ h H' H,
    parseHeaderParams_of_split raws h _ H (by omega)⟩

example : SplitSemis b!"form-data; name=\"a;b\"; x" [b!"form-data", b!" name=\"a;b\"", b!" x"] ∧
    parseHeaderParams 100 (59 :: b!"form-data; name=\"a;b\"; x") =
      [b!"form-data", b!"name=\"a;b\"", b!"x"] := by
  obtain ⟨raws, H, _, e⟩ := C15_split b!"form-data; name=\"a;b\"; x"
  refine ⟨⟨by decide, by decide, ?_, by decide⟩, by decide +kernel⟩
  intro r hr a b hab
  have hlen : a.length < r.length := by rw [hab]; simp
  have ha : a = r.take a.length := by rw [hab]; simp
  have hs : r[a.length]? = some 59 := by rw [hab]; simp
  rw [ha]
  clear ha hab
  generalize a.length = j at *
  simp only [List.mem_cons, List.not_mem_nil, or_false] at hr
  rcases hr with rfl | rfl | rfl
  · revert hs; revert hlen; revert j; decide
  · revert hs; revert hlen; revert j; decide
  · revert hs; revert hlen; revert j; decide

/-- **C15** for `parse_header`: the key is the first piece, the parameters are read from the
other pieces, each on its own, in order. -/
theorem C15_parse_header (C : Codecs) {h k : Bytes} {rest : List Bytes}
    (H : SplitSemis h (k :: rest)) :
    parseHeader C h =
      if Py.isAscii (Py.lower (Py.strip k)) = false then .error .unicodeDecodeError
      else match parseParams C (rest.map Py.strip) [] with
        | .error e => .error e
        | .ok d => .ok (Py.lower (Py.strip k), d) :=
  parseHeader_of_split C H

/-- A list of parameters can be told apart after writing: a semicolon inside a value follows
an even number of double quotes of that value, and only the last value may contain an odd
number of double quotes. -/
def Separable (ps : List (Bytes × Bytes)) : Prop :=
  (∀ p ∈ ps, ∀ a b, p.2 = a ++ 59 :: b → quotes a % 2 = 0) ∧
  (∀ p ∈ ps.dropLast, quotes p.2 % 2 = 0)

/-- **C16.** Writing any parameters as `; name="escaped value"` after a key and parsing the
header gives back, for every name, the bytes of the value written last for it. -/
theorem C16_quoted_round_trip (C : Codecs) (key : Bytes) (ps : List (Bytes × Bytes))
    (hk : 34 ∉ key ∧ 59 ∉ key ∧ ∀ c ∈ key, c < 128)
    (hn : ∀ p ∈ ps, ParamName p.1) (hv : Separable ps) :
    ∃ d, parseHeader C (key ++ renderParams ps) = .ok (Py.lower (Py.strip key), d) ∧
      ∀ n, d.get? n =
        (lastValue (ps.map (fun p => (Py.lower p.1, p.2))) n).map PyStr.b := by
  have H : SplitSemis (key ++ renderParams ps) (key :: ps.map paramRaw) := by
    refine ⟨by simp, join_render key ps, ?_, ?_⟩
    · intro r hr a b hab
      rcases List.mem_cons.1 hr with rfl | hr
      · exact absurd (by rw [hab]; simp) hk.2.1
      · obtain ⟨p, hp, rfl⟩ := List.mem_map.1 hr
        have e : paramRaw p = (b!" " ++ p.1 ++ b!"=\"") ++ (escapeQuoted p.2 ++ b!"\"") := by
          simp [paramRaw]
        rw [e] at hab
        have hq : quotes (b!" " ++ p.1 ++ b!"=\"") = 1 := by
          rw [quotes_append, quotes_append]
          have : quotes p.1 = 0 := List.count_eq_zero.2 (hn p hp).noQuote
          rw [this]; rfl
        rcases List.append_eq_append_iff.1 hab with ⟨a', ha, hb⟩ | ⟨c', hc, hd⟩
        · rw [ha, quotes_append, hq]
          rcases List.append_eq_append_iff.1 hb with ⟨x, hx, hy⟩ | ⟨x, hx, hy⟩
          · cases x with
            | nil => simp at hy
            | cons x0 x => simp at hy
          · cases x with
            | nil => simp at hy
            | cons x0 x =>
              simp at hy
              obtain ⟨rfl, _⟩ := hy
              obtain ⟨u, w, hu, rfl⟩ := escape_split _ _ _ hx
              have := hv.1 p hp u w hu
              rw [quotes_escape]; omega
        · cases c' with
          | nil => simp only [List.append_nil] at hc; rw [← hc, hq]
          | cons x c' =>
            simp at hd
            exfalso
            have hnot : (59 : UInt8) ∉ b!" " ++ p.1 ++ b!"=\"" := by
              simp [(hn p hp).noSemi]
            apply hnot
            rw [hc]; simp [← hd.1]
    · intro r hr
      cases ps with
      | nil => simp at hr
      | cons q qs =>
        rw [List.map_cons, List.dropLast_cons_of_ne_nil (by simp), ← List.map_cons,
          ← List.map_dropLast] at hr
        rcases List.mem_cons.1 hr with rfl | hr
        · simp [quotes, List.count_eq_zero.2 hk.1]
        · obtain ⟨p, hp, rfl⟩ := List.mem_map.1 hr
          have hq := hv.2 p hp
          have hp' := List.mem_of_mem_dropLast hp
          have : quotes p.1 = 0 := List.count_eq_zero.2 (hn p hp').noQuote
          simp only [paramRaw, quotes_append, this, quotes_escape]
          simp [quotes] at hq ⊢
          omega
  rw [parseHeader_of_split C H, parseParams_raws C ps [] hn]
  have ha : Py.isAscii (Py.lower (Py.strip key)) = true := by
    rw [lower_ascii]
    unfold Py.isAscii
    simp only [List.all_eq_true, decide_eq_true_eq]
    intro c hc
    apply hk.2.2
    unfold Py.strip Py.stripBy at hc
    rw [List.mem_reverse] at hc
    have h1 := List.dropWhile_suffix (p := Py.isSpace) (l := (key.dropWhile Py.isSpace).reverse)
    have h2 := h1.subset hc
    rw [List.mem_reverse] at h2
    exact (List.dropWhile_suffix (p := Py.isSpace)).subset h2
  rw [if_neg (by simp [ha])]
  refine ⟨_, rfl, fun n => ?_⟩
  have := foldl_set_get (ps.map (fun p => (Py.lower p.1, p.2))) n []
  rw [List.foldl_map] at this
  rw [this]
  simp [Dict.get?]

/-- A quoted value with a semicolon, an escaped backslash and two escaped quotes. -/
example : ∃ d, parseHeader noCodecs
      (b!"form-data" ++ renderParams [(b!"Name", b!"a;\\\"b\"c;"), (b!"x", b!"\"")]) =
        .ok (b!"form-data", d) ∧
      d.get? b!"name" = some (.b b!"a;\\\"b\"c;") ∧ d.get? b!"x" = some (.b b!"\"") := by
  have hn : ∀ p ∈ [(b!"Name", b!"a;\\\"b\"c;"), (b!"x", b!"\"")], ParamName p.1 := by
    intro p hp
    simp only [List.mem_cons, List.not_mem_nil, or_false] at hp
    rcases hp with rfl | rfl <;> exact ⟨by decide, by decide, by decide, by decide, by simp, by simp⟩
  have hv : Separable [(b!"Name", b!"a;\\\"b\"c;"), (b!"x", b!"\"")] := by
    refine ⟨fun p hp a b hab => ?_, by decide⟩
    have hlen : a.length < p.2.length := by rw [hab]; simp
    have ha : a = p.2.take a.length := by rw [hab]; simp
    have hs : p.2[a.length]? = some 59 := by rw [hab]; simp
    rw [ha]
    clear ha hab
    generalize a.length = j at *
    simp only [List.mem_cons, List.not_mem_nil, or_false] at hp
    rcases hp with rfl | rfl
    · revert hs; revert hlen; revert j; decide
    · revert hs; revert hlen; revert j; decide
  obtain ⟨d, h1, h2⟩ := C16_quoted_round_trip noCodecs b!"form-data"
    [(b!"Name", b!"a;\\\"b\"c;"), (b!"x", b!"\"")] (by decide) hn hv
  exact ⟨d, h1, by rw [h2]; decide, by rw [h2]; decide⟩

/-- Two pieces of a header that differ at most in the case of letters before `=`. -/
def SameButCase (r r' : Bytes) : Prop :=
  r = r' ∨ ∃ l l' v, r = l ++ 61 :: v ∧ r' = l' ++ 61 :: v ∧ 61 ∉ l ∧ Py.lower l = Py.lower l'

theorem parseParam_case (C : Codecs) {r r' : Bytes} (h : SameButCase r r') :
    parseParam C (Py.strip r) = parseParam C (Py.strip r') := by
  rcases h with rfl | ⟨l, l', v, rfl, rfl, hl, hll⟩
  · rfl
  · have hl' : (61 : UInt8) ∉ l' := by
      intro hm
      have h1 := count_lower (c := 61) (by decide) (by decide) l
      have h2 := count_lower (c := 61) (by decide) (by decide) l'
      rw [hll, h2, List.count_eq_zero.2 hl] at h1
      exact (List.count_eq_zero.1 h1) hm
    unfold Py.strip
    rw [strip_mid (by decide), strip_mid (by decide)]
    have sub : ∀ {a : Bytes}, 61 ∉ a → (61 : UInt8) ∉ a.dropWhile Py.isSpace :=
      fun h hm => h ((List.dropWhile_suffix _).subset hm)
    have hdw : Py.lower (l.dropWhile Py.isSpace) = Py.lower (l'.dropWhile Py.isSpace) := by
      rw [lower_dropWhile, lower_dropWhile, hll]
    have hname : Py.lower (Py.strip (l.dropWhile Py.isSpace)) =
        Py.lower (Py.strip (l'.dropWhile Py.isSpace)) := by
      rw [lower_strip, lower_strip, hdw]
    have hcount : ∀ w : Bytes, Py.countChar 39 (l.dropWhile Py.isSpace ++ 61 :: w) =
        Py.countChar 39 (l'.dropWhile Py.isSpace ++ 61 :: w) := by
      intro w
      rw [countChar_eq, countChar_eq, List.count_append, List.count_append,
        ← count_lower (c := 39) (by decide) (by decide) (l.dropWhile _),
        ← count_lower (c := 39) (by decide) (by decide) (l'.dropWhile _), hdw]
    unfold parseParam
    rw [splitFirst_append (sub hl), splitFirst_append (sub hl')]
    simp only [hname, hcount]

theorem parseParams_case (C : Codecs) {rs rs' : List Bytes} (h : List.Forall₂ SameButCase rs rs') :
    ∀ d, parseParams C (rs.map Py.strip) d = parseParams C (rs'.map Py.strip) d := by
  induction h with
  | nil => intro d; rfl
  | cons h _ ih =>
    intro d
    simp only [List.map_cons, parseParams, parseParam_case C h, ih]

/-- **C17**, case-insensitivity: changing the case of letters in the key or in parameter names
changes nothing in the result. -/
theorem C17_case_insensitive (C : Codecs) {h h' k k' : Bytes} {rs rs' : List Bytes}
    (H : SplitSemis h (k :: rs)) (H' : SplitSemis h' (k' :: rs'))
    (hk : Py.lower k = Py.lower k') (hr : List.Forall₂ SameButCase rs rs') :
    parseHeader C h = parseHeader C h' := by
  rw [parseHeader_of_split C H, parseHeader_of_split C H', parseParams_case C hr,
    lower_strip, lower_strip, hk]

example (C : Codecs) : parseHeader C b!"FORM-data; NAME=Abc" = parseHeader C b!"form-Data; name=Abc" := by
  have S : ∀ k r : Bytes, 59 ∉ k → 34 ∉ k → 59 ∉ r → SplitSemis (k ++ 59 :: r) [k, r] := by
    intro k r h1 h2 h3
    refine ⟨by simp, by simp [joinSemi], ?_, ?_⟩
    · intro x hx a b hab
      simp at hx
      rcases hx with rfl | rfl
      · exact absurd (by rw [hab]; simp) h1
      · exact absurd (by rw [hab]; simp) h3
    · intro x hx
      simp at hx; subst hx
      simp [quotes, List.count_eq_zero.2 h2]
  exact C17_case_insensitive C (S b!"FORM-data" b!" NAME=Abc" (by decide) (by decide) (by decide))
    (S b!"form-Data" b!" name=Abc" (by decide) (by decide) (by decide)) (by decide)
    (.cons (.inr ⟨b!" NAME", b!" name", b!"Abc", rfl, rfl, by decide, by decide⟩) .nil)

/-- How a value is read off the text after `=`: the stripped text itself, or, if that is in
double quotes, the text between them with `\\\\` and then `\\"` unescaped. -/
inductive ReadValue (x : Bytes) : Bytes → Prop where
  | plain : ReadValue x (Py.strip x)
  | quoted (w : Bytes) : Py.strip x = b!"\"" ++ w ++ b!"\"" →
      ReadValue x (Py.replacePair 92 34 34 (Py.replacePair 92 92 92 w))

/-- Where a parameter of the result comes from: a piece `name=text` or `name*=text`. -/
def FromPiece (r n : Bytes) (v : PyStr) : Prop :=
  ∃ l x, r = l ++ 61 :: x ∧ 61 ∉ l ∧
    (Py.lower (Py.strip l) = n ∨ Py.lower (Py.strip l) = n ++ b!"*") ∧
    ((∃ b, v = .b b ∧ ReadValue x b) ∨
      (∃ u, v = .u u ∧ Py.lower (Py.strip l) = n ++ b!"*" ∧ 39 ∈ r))

theorem readValue_of (x : Bytes) : ReadValue x (unquoteValue 34 92 (Py.strip x)) := by
  unfold unquoteValue
  split
  · rename_i h
    refine .quoted _ ?_
    generalize Py.strip x = s at h
    obtain ⟨h1, h2, h3⟩ := h
    cases s with
    | nil => simp at h1
    | cons a t =>
      simp at h2; subst h2
      have ht : t ≠ [] := by rintro rfl; simp at h1
      have : t.getLast? = some 34 := by
        rw [List.getLast?_cons_of_ne_nil ht] at h3; exact h3
      have h4 := List.dropLast_append_getLast? _ this
      simp [h4]
  · exact .plain

theorem parseParam_from (C : Codecs) {r n : Bytes} {v : PyStr}
    (h : parseParam C (Py.strip r) = .ok (some (n, v))) : FromPiece r n v := by
  unfold parseParam at h
  split at h
  · simp at h
  rename_i l' x' hsplit
  obtain ⟨e1, e2⟩ := splitFirst_some hsplit
  -- locate the first `=` of the piece itself
  have hm : (61 : UInt8) ∈ r := by
    have h1 : (61 : UInt8) ∈ Py.strip r := by rw [e1]; simp
    unfold Py.strip Py.stripBy at h1
    rw [List.mem_reverse] at h1
    have h2 := (List.dropWhile_suffix _).subset h1
    rw [List.mem_reverse] at h2
    exact (List.dropWhile_suffix _).subset h2
  obtain ⟨⟨l, x⟩, hlx⟩ : ∃ p, Py.splitFirst 61 r = some p := by
    cases e : Py.splitFirst 61 r with
    | none => exact absurd hm (splitFirst_none.1 e)
    | some p => exact ⟨p, rfl⟩
  obtain ⟨e3, e4⟩ := splitFirst_some hlx
  have e5 : Py.strip r = l.dropWhile Py.isSpace ++ 61 :: (x.reverse.dropWhile Py.isSpace).reverse := by
    rw [e3]; exact strip_mid (by decide) l x
  have hsub : (61 : UInt8) ∉ l.dropWhile Py.isSpace :=
    fun h => e4 ((List.dropWhile_suffix _).subset h)
  rw [e5, splitFirst_append hsub] at hsplit
  simp only [Option.some.injEq, Prod.mk.injEq] at hsplit
  obtain ⟨rfl, rfl⟩ := hsplit
  have hs1 : Py.strip (l.dropWhile Py.isSpace) = Py.strip l := strip_lstrip _ _
  have hs2 : Py.strip ((x.reverse.dropWhile Py.isSpace).reverse) = Py.strip x :=
    rstrip_lstrip_comm _ _
  simp only [hs1, hs2] at h
  refine ⟨l, x, e3, e4, ?_⟩
  split at h
  · simp at h
  have hname : ∀ n', n' = (if Py.endsWith b!"*" (Py.lower (Py.strip l)) = true then
      (Py.lower (Py.strip l)).dropLast else Py.lower (Py.strip l)) →
      (Py.endsWith b!"*" (Py.lower (Py.strip l)) = true → Py.lower (Py.strip l) = n' ++ b!"*") ∧
      (Py.endsWith b!"*" (Py.lower (Py.strip l)) = false → Py.lower (Py.strip l) = n') := by
    rintro n' rfl
    constructor
    · intro hstar
      rw [if_pos hstar]
      obtain ⟨t, ht⟩ := List.isSuffixOf_iff_suffix.1 hstar
      rw [← ht]; simp
    · intro hstar
      rw [if_neg (by simp [hstar])]
  have hor : ∀ n', n' = (if Py.endsWith b!"*" (Py.lower (Py.strip l)) = true then
      (Py.lower (Py.strip l)).dropLast else Py.lower (Py.strip l)) →
      Py.lower (Py.strip l) = n' ∨ Py.lower (Py.strip l) = n' ++ b!"*" := by
    intro n' e
    cases hstar : Py.endsWith b!"*" (Py.lower (Py.strip l)) with
    | true => exact .inr ((hname n' e).1 hstar)
    | false => exact .inl ((hname n' e).2 hstar)
  split at h
  · rename_i henc
    simp only [Bool.and_eq_true, decide_eq_true_eq] at henc
    split at h
    · split at h
      · simp at h
      split at h
      · simp at h
      split at h
      · simp at h
      · simp only [Except.ok.injEq, Option.some.injEq, Prod.mk.injEq] at h
        obtain ⟨hn, rfl⟩ := h
        refine ⟨hor n hn.symm, .inr ⟨_, rfl, (hname n hn.symm).1 henc.1, ?_⟩⟩
        have : 0 < List.count 39 (Py.strip r) := by
          have h0 := henc.2
          rw [← countChar_eq]
          omega
        have h1 := List.count_pos_iff.1 this
        unfold Py.strip Py.stripBy at h1
        rw [List.mem_reverse] at h1
        have h2 := (List.dropWhile_suffix _).subset h1
        rw [List.mem_reverse] at h2
        exact (List.dropWhile_suffix _).subset h2
    · simp at h
  · simp only [Except.ok.injEq, Option.some.injEq, Prod.mk.injEq] at h
    obtain ⟨hn, rfl⟩ := h
    exact ⟨hor n hn.symm, .inl ⟨_, rfl, readValue_of x⟩⟩

theorem parseParams_from (C : Codecs) : ∀ (rs : List Bytes) (d d' : Dict Bytes PyStr),
    parseParams C (rs.map Py.strip) d = .ok d' → ∀ n v, d'.get? n = some v →
    d.get? n = some v ∨ ∃ r ∈ rs, FromPiece r n v := by
  intro rs
  induction rs with
  | nil => intro d d' h n v hv; simp [parseParams] at h; subst h; exact .inl hv
  | cons r rs ih =>
    intro d d' h n v hv
    simp only [List.map_cons, parseParams] at h
    split at h
    · simp at h
    · rcases ih _ _ h n v hv with h1 | ⟨r', hr', h1⟩
      · exact .inl h1
      · exact .inr ⟨r', by simp [hr'], h1⟩
    · rename_i n' v' hp
      rcases ih _ _ h n v hv with h1 | ⟨r', hr', h1⟩
      · rw [Dict.get?_set] at h1
        split at h1
        · rename_i e; subst e
          simp at h1; subst h1
          exact .inr ⟨r, by simp, parseParam_from C hp⟩
        · exact .inl h1
      · exact .inr ⟨r', by simp [hr'], h1⟩

/-- **C17**, values: the key is the stripped, lower-cased first piece; every parameter comes
from a piece `name=text`, its name is the stripped lower-cased text before `=` (without a
final `*`) and its value the text after it, byte for byte, apart from surrounding white
space, quotes and escapes (or a decoded value for `name*=charset'lang'text`). -/
theorem C17_values (C : Codecs) {h k : Bytes} {rs : List Bytes} (H : SplitSemis h (k :: rs))
    {key : Bytes} {d : Dict Bytes PyStr} (hp : parseHeader C h = .ok (key, d)) :
    key = Py.lower (Py.strip k) ∧
    ∀ n v, d.get? n = some v → ∃ r ∈ rs, FromPiece r n v := by
  rw [parseHeader_of_split C H] at hp
  split at hp
  · simp at hp
  split at hp
  · simp at hp
  · rename_i d' hd
    simp only [Except.ok.injEq, Prod.mk.injEq] at hp
    obtain ⟨rfl, rfl⟩ := hp
    refine ⟨rfl, fun n v hv => ?_⟩
    rcases parseParams_from C rs [] d' hd n v hv with h1 | h1
    · simp [Dict.get?] at h1
    · exact h1

example : ∃ d, parseHeader latinCodecs b!"A; B*=utf-8''x%41Y; C=dE" =
    .ok (b!"a", d) ∧ d.get? b!"b" = some (.u (Py.toU b!"xAY")) ∧
    d.get? b!"c" = some (.b b!"dE") :=
  ⟨[(b!"b", .u (Py.toU b!"xAY")), (b!"c", .b b!"dE")], by decide +kernel⟩

end Verif
