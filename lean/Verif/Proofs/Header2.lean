import Verif.Proofs.Header
/-!
# Quoted parameters
-/

namespace Verif
open Spec

theorem quotes_escape (v : Bytes) : quotes (escapeQuoted v) = quotes v := by
  induction v with
  | nil => rfl
  | cons c t ih =>
    unfold quotes at *
    unfold escapeQuoted
    split
    · simp [List.count_cons, ih]
    · simp [List.count_cons, ih]

theorem escape_split : ∀ (v a b : Bytes), escapeQuoted v = a ++ 59 :: b →
    ∃ x y, v = x ++ 59 :: y ∧ a = escapeQuoted x := by
  intro v
  induction v with
  | nil => intro a b h; simp [escapeQuoted] at h
  | cons c t ih =>
    intro a b h
    unfold escapeQuoted at h
    split at h
    · rename_i hc
      cases a with
      | nil => simp at h
      | cons a0 a =>
        cases a with
        | nil =>
          simp at h
          obtain ⟨_, rfl, _⟩ := h
          simp at hc
        | cons a1 a =>
          simp at h
          obtain ⟨rfl, rfl, h⟩ := h
          obtain ⟨x, y, rfl, rfl⟩ := ih a b h
          exact ⟨c :: x, y, by simp, by simp [escapeQuoted, hc]⟩
    · rename_i hc
      cases a with
      | nil =>
        simp at h
        obtain ⟨rfl, rfl⟩ := h
        exact ⟨[], t, rfl, rfl⟩
      | cons a0 a =>
        simp at h
        obtain ⟨rfl, h⟩ := h
        obtain ⟨x, y, rfl, rfl⟩ := ih a b h
        exact ⟨c :: x, y, by simp, by simp [escapeQuoted, hc]⟩

/-- After the first replacement only the quotes are still escaped. -/
def escQ : Bytes → Bytes
  | [] => []
  | c :: t => if c = 34 then 92 :: c :: escQ t else c :: escQ t

theorem replacePair_cons_ne {α : Type} [DecidableEq α] {a b r x : α} (t : List α) (h : x ≠ a) :
    Py.replacePair a b r (x :: t) = x :: Py.replacePair a b r t := by
  cases t with
  | nil => simp [Py.replacePair]
  | cons y t => rw [Py.replacePair]; simp [h]

theorem replace1 (v : Bytes) : Py.replacePair 92 92 92 (escapeQuoted v) = escQ v := by
  induction v with
  | nil => rfl
  | cons c t ih =>
    unfold escapeQuoted escQ
    by_cases h1 : c = 92
    · subst h1; simp [Py.replacePair, ih]
    · by_cases h2 : c = 34
      · subst h2
        rw [if_pos (by simp), if_pos rfl, Py.replacePair]
        rw [if_neg (by simp), replacePair_cons_ne _ (by decide), ih]
      · rw [if_neg (by simp [h1, h2]), if_neg h2, replacePair_cons_ne _ h1, ih]

theorem replace2 (v : Bytes) : Py.replacePair 92 34 34 (escQ v) = v := by
  induction v with
  | nil => rfl
  | cons c t ih =>
    unfold escQ
    by_cases h2 : c = 34
    · subst h2; simp [Py.replacePair, ih]
    · rw [if_neg h2]
      by_cases h1 : c = 92
      · subst h1
        cases e : escQ t with
        | nil => rw [e] at ih; simp [Py.replacePair] at ih ⊢; exact ih
        | cons d u =>
          have hd : d ≠ 34 := by
            cases t with
            | nil => simp [escQ] at e
            | cons d' t' =>
              unfold escQ at e
              split at e
              · simp at e; rw [← e.1]; decide
              · simp at e; rw [← e.1]; assumption
          rw [Py.replacePair, if_neg (by simp [hd]), ← e, ih]
      · rw [replacePair_cons_ne _ h1, ih]

theorem unquoteValue_escape (v : Bytes) :
    unquoteValue 34 92 (b!"\"" ++ escapeQuoted v ++ b!"\"") = v := by
  unfold unquoteValue
  rw [if_pos ⟨by simp, by simp, by rw [List.getLast?_concat]⟩]
  simp [replace1, replace2]

theorem stripBy_id {p : UInt8 → Bool} {s : Bytes} (h1 : ∀ c, s.head? = some c → p c = false)
    (h2 : ∀ c, s.getLast? = some c → p c = false) : Py.stripBy p s = s := by
  unfold Py.stripBy
  have : s.dropWhile p = s := by
    cases s with
    | nil => rfl
    | cons c t => simp [List.dropWhile, h1 c (by simp)]
  rw [this]
  have : s.reverse.dropWhile p = s.reverse := by
    cases e : s.reverse with
    | nil => rfl
    | cons c t =>
      have : s.getLast? = some c := by rw [← List.head?_reverse, e]; rfl
      simp [List.dropWhile, h2 c this]
  rw [this, List.reverse_reverse]

theorem strip_cons_space {c : UInt8} {s : Bytes} (h : Py.isSpace c = true) :
    Py.strip (c :: s) = Py.strip s := by
  simp [Py.strip, Py.stripBy, List.dropWhile, h]

theorem isSpace_false {c : UInt8} (h : c ≠ 32 ∧ ¬ (9 ≤ c ∧ c ≤ 13)) : Py.isSpace c = false := by
  unfold Py.isSpace; simp; exact ⟨fun a => by
    by_contra hc; exact h.2 ⟨a, by simpa using hc⟩, h.1⟩

theorem lower_ascii {s : Bytes} : Py.isAscii (Py.lower s) = Py.isAscii s := by
  unfold Py.isAscii Py.lower
  rw [List.all_map]
  congr 1
  funext c
  simp only [Function.comp, Py.lowerByte]
  split
  · rename_i h
    have h1 : c.toNat ≤ 90 := UInt8.le_iff_toNat_le.1 h.2
    have : (c + 32 < 128) ∧ c < 128 := by
      constructor
      · rw [UInt8.lt_iff_toNat_lt]; simp [UInt8.toNat_add]; omega
      · rw [UInt8.lt_iff_toNat_lt]; simp; omega
    simp [this]
  · rfl

theorem splitFirst_append {c : UInt8} {l r : Bytes} (h : c ∉ l) :
    Py.splitFirst c (l ++ c :: r) = some (l, r) := by
  induction l with
  | nil => simp [Py.splitFirst]
  | cons x t ih =>
    simp at h
    simp [Py.splitFirst, Ne.symm h.1, ih h.2]

theorem splitFirst_some {c : UInt8} : ∀ {s l r : Bytes}, Py.splitFirst c s = some (l, r) →
    s = l ++ c :: r ∧ c ∉ l := by
  intro s
  induction s with
  | nil => intro l r h; simp [Py.splitFirst] at h
  | cons x t ih =>
    intro l r h
    unfold Py.splitFirst at h
    split at h
    · rename_i hx; subst hx; simp at h; obtain ⟨rfl, rfl⟩ := h; simp
    · rename_i hx
      obtain ⟨⟨l', r'⟩, h1, h2⟩ := Option.map_eq_some_iff.1 h
      simp at h2
      obtain ⟨rfl, rfl⟩ := h2
      obtain ⟨rfl, h3⟩ := ih h1
      simp [h3, Ne.symm hx]

theorem splitFirst_none {c : UInt8} {s : Bytes} : Py.splitFirst c s = none ↔ c ∉ s := by
  induction s with
  | nil => simp [Py.splitFirst]
  | cons x t ih =>
    unfold Py.splitFirst
    by_cases h : x = c
    · simp [h]
    · simp [h, ih, Ne.symm h]

/-- One written parameter, as a raw piece of the header. -/
def paramRaw (p : Bytes × Bytes) : Bytes :=
  b!" " ++ p.1 ++ b!"=\"" ++ escapeQuoted p.2 ++ b!"\""

theorem strip_paramRaw {p : Bytes × Bytes} (hn : ParamName p.1) :
    Py.strip (paramRaw p) = p.1 ++ 61 :: (b!"\"" ++ escapeQuoted p.2 ++ b!"\"") := by
  have : paramRaw p = 32 :: (p.1 ++ 61 :: (b!"\"" ++ escapeQuoted p.2 ++ b!"\"")) := by
    simp [paramRaw]
  rw [this, strip_cons_space (by decide)]
  refine stripBy_id ?_ ?_
  · intro c hc
    cases e : p.1 with
    | nil => simp [e] at hc; subst hc; decide
    | cons a t =>
      simp [e] at hc; subst hc
      exact isSpace_false (hn.first a (by simp [e]))
  · intro c hc
    rw [show p.1 ++ 61 :: (b!"\"" ++ escapeQuoted p.2 ++ b!"\"") =
      (p.1 ++ 61 :: (b!"\"" ++ escapeQuoted p.2)) ++ [34] by simp, List.getLast?_concat] at hc
    simp at hc; subst hc; decide

theorem lowerByte_ne {c d : UInt8} (h : ¬ (97 ≤ d ∧ d ≤ 122)) : Py.lowerByte c = d → c = d := by
  unfold Py.lowerByte
  split
  · rename_i hc
    intro e; subst e
    exfalso
    apply h
    have h1 := UInt8.le_iff_toNat_le.1 hc.1
    have h2 := UInt8.le_iff_toNat_le.1 hc.2
    simp at h1 h2
    constructor <;> rw [UInt8.le_iff_toNat_le] <;> simp [UInt8.toNat_add] <;> omega
  · exact id

theorem parseParam_raw (C : Codecs) {p : Bytes × Bytes} (hn : ParamName p.1) :
    parseParam C (Py.strip (paramRaw p)) = .ok (some (Py.lower p.1, .b p.2)) := by
  rw [strip_paramRaw hn]
  have hs : Py.strip p.1 = p.1 := by
    refine stripBy_id (fun c hc => isSpace_false (hn.first c hc)) (fun c hc => ?_)
    obtain ⟨a, b, _⟩ := hn.last c hc
    exact isSpace_false ⟨a, b⟩
  have ha : Py.isAscii (Py.lower p.1) = true := by
    rw [lower_ascii]; unfold Py.isAscii; simp; exact hn.ascii
  have he : Py.endsWith b!"*" (Py.lower p.1) = false := by
    unfold Py.endsWith
    by_contra hc
    simp only [Bool.not_eq_false] at hc
    rw [List.isSuffixOf_iff_suffix] at hc
    obtain ⟨t, ht⟩ := hc
    have h1 : (Py.lower p.1).getLast? = some 42 := by rw [← ht]; simp
    unfold Py.lower at h1
    rw [List.getLast?_map] at h1
    obtain ⟨c, hc1, hc2⟩ := Option.map_eq_some_iff.1 h1
    have := lowerByte_ne (by decide) hc2
    exact (hn.last c hc1).2.2 this
  have hv : Py.strip (b!"\"" ++ escapeQuoted p.2 ++ b!"\"") = b!"\"" ++ escapeQuoted p.2 ++ b!"\"" := by
    refine stripBy_id ?_ ?_
    · intro c hc; simp at hc; subst hc; decide
    · intro c hc; rw [List.getLast?_concat] at hc; simp at hc; subst hc; decide
  unfold parseParam
  rw [splitFirst_append hn.noEq]
  simp only [hs, ha, he, hv, unquoteValue_escape, Bool.false_and, if_false, Bool.false_eq_true,
    Bool.true_eq_false]

theorem parseParams_raws (C : Codecs) : ∀ (ps : List (Bytes × Bytes)) (d : Dict Bytes PyStr),
    (∀ p ∈ ps, ParamName p.1) →
    parseParams C ((ps.map paramRaw).map Py.strip) d =
      .ok (ps.foldl (fun d p => d.set (Py.lower p.1) (.b p.2)) d) := by
  intro ps
  induction ps with
  | nil => intro d _; rfl
  | cons p ps ih =>
    intro d h
    simp only [List.map_cons, parseParams, parseParam_raw C (h p (by simp)), List.foldl_cons]
    exact ih _ (fun q hq => h q (by simp [hq]))

theorem foldl_set_get (ps : List (Bytes × Bytes)) (n : Bytes) : ∀ (d : Dict Bytes PyStr),
    (ps.foldl (fun d p => d.set p.1 (.b p.2)) d).get? n =
      ((lastValue ps n).map PyStr.b).or (d.get? n) := by
  induction ps using List.reverseRecOn with
  | nil => intro d; simp [lastValue]
  | append_singleton ps p ih =>
    intro d
    rw [List.foldl_append]
    simp only [List.foldl_cons, List.foldl_nil, Dict.get?_set, lastValue, List.reverse_append,
      List.reverse_cons, List.reverse_nil, List.nil_append, List.singleton_append, List.find?_cons]
    by_cases h : p.1 = n
    · simp [h]
    · simp only [h, if_false, decide_false]
      exact ih d

theorem renderParams_raws (ps : List (Bytes × Bytes)) :
    renderParams ps = (ps.map (fun p => 59 :: paramRaw p)).flatten := by
  induction ps with
  | nil => rfl
  | cons p ps ih => obtain ⟨n, v⟩ := p; simp [renderParams, ih, paramRaw]

theorem join_render (key : Bytes) (ps : List (Bytes × Bytes)) :
    key ++ renderParams ps = joinSemi (key :: ps.map paramRaw) := by
  induction ps generalizing key with
  | nil => simp [renderParams, joinSemi]
  | cons p ps ih =>
    rw [renderParams_raws]
    simp only [List.map_cons, List.flatten_cons, joinSemi]
    rw [← ih (paramRaw p), renderParams_raws]
    simp

theorem strip_mid {p : UInt8 → Bool} {c : UInt8} (hc : p c = false) (l v : Bytes) :
    Py.stripBy p (l ++ c :: v) = l.dropWhile p ++ c :: (v.reverse.dropWhile p).reverse := by
  have h1 : (l ++ c :: v).dropWhile p = l.dropWhile p ++ c :: v := by
    induction l with
    | nil => simp [List.dropWhile, hc]
    | cons x t ih =>
      by_cases hx : p x <;> simp [hx, ih]
  unfold Py.stripBy
  rw [h1]
  have h2 : (l.dropWhile p ++ c :: v).reverse = v.reverse ++ c :: (l.dropWhile p).reverse := by simp
  rw [h2]
  have h3 : ∀ (a b : Bytes), (a ++ c :: b).dropWhile p = a.dropWhile p ++ c :: b := by
    intro a b
    induction a with
    | nil => simp [List.dropWhile, hc]
    | cons x t ih =>
      by_cases hx : p x <;> simp [hx, ih]
  rw [h3]; simp

theorem strip_lstrip (p : UInt8 → Bool) (l : Bytes) :
    Py.stripBy p (l.dropWhile p) = Py.stripBy p l := by
  have : (l.dropWhile p).dropWhile p = l.dropWhile p := by
    induction l with
    | nil => rfl
    | cons x t ih => by_cases hx : p x <;> simp [hx, ih]
  unfold Py.stripBy; rw [this]

theorem rstrip_lstrip_comm (p : UInt8 → Bool) (l : Bytes) :
    Py.stripBy p ((l.reverse.dropWhile p).reverse) = Py.stripBy p l := by
  have idem : ∀ a : Bytes, (a.dropWhile p).dropWhile p = a.dropWhile p := by
    intro a
    induction a with
    | nil => rfl
    | cons x t ih => by_cases hx : p x <;> simp [hx, ih]
  have key : ∀ a : Bytes, (((a.dropWhile p).reverse).dropWhile p).reverse =
      ((a.reverse.dropWhile p).reverse).dropWhile p := by
    intro a
    induction a with
    | nil => rfl
    | cons x t ih =>
      by_cases hx : p x
      · rw [List.dropWhile_cons_of_pos hx, ih, List.reverse_cons, List.dropWhile_append]
        by_cases hz : (t.reverse.dropWhile p).isEmpty
        · rw [if_pos hz]
          simp [List.isEmpty_iff.1 hz, hx]
        · rw [if_neg hz]; simp [hx]
      · rw [List.dropWhile_cons_of_neg hx, List.reverse_cons, List.dropWhile_append]
        by_cases hz : (t.reverse.dropWhile p).isEmpty
        · rw [if_pos hz]; simp [hx]
        · rw [if_neg hz]; simp [hx]
  unfold Py.stripBy
  rw [key, key, List.reverse_reverse, idem]

theorem lowerByte_space (c : UInt8) : Py.isSpace (Py.lowerByte c) = Py.isSpace c := by
  unfold Py.lowerByte
  split
  · rename_i h
    have h1 := UInt8.le_iff_toNat_le.1 h.1
    have h2 := UInt8.le_iff_toNat_le.1 h.2
    simp at h1 h2
    have e1 : Py.isSpace c = false := isSpace_false
      ⟨fun e => by subst e; simp at h1, fun e => by have := UInt8.le_iff_toNat_le.1 e.2; simp at this; omega⟩
    have ea : (c + 32).toNat = c.toNat + 32 := by simp [UInt8.toNat_add]; omega
    have e2 : Py.isSpace (c + 32) = false := isSpace_false
      ⟨fun e => by have := congrArg UInt8.toNat e; rw [ea] at this; simp at this; omega,
       fun e => by have := UInt8.le_iff_toNat_le.1 e.2; rw [ea] at this; simp at this⟩
    rw [e1, e2]
  · rfl

theorem lower_dropWhile (l : Bytes) :
    Py.lower (l.dropWhile Py.isSpace) = (Py.lower l).dropWhile Py.isSpace := by
  induction l with
  | nil => rfl
  | cons x t ih =>
    unfold Py.lower at *
    by_cases hx : Py.isSpace x
    · simp [hx, lowerByte_space, ih]
    · simp [hx, lowerByte_space]

theorem lower_strip (l : Bytes) : Py.lower (Py.strip l) = Py.strip (Py.lower l) := by
  have hr : ∀ a : Bytes, Py.lower a.reverse = (Py.lower a).reverse := by
    intro a; simp [Py.lower]
  unfold Py.strip Py.stripBy
  rw [hr, lower_dropWhile, hr, lower_dropWhile]

theorem count_lower {c : UInt8} (h : ¬ (97 ≤ c ∧ c ≤ 122)) (h' : ¬ (65 ≤ c ∧ c ≤ 90)) (s : Bytes) :
    (Py.lower s).count c = s.count c := by
  unfold Py.lower
  induction s with
  | nil => rfl
  | cons x t ih =>
    simp only [List.map_cons, List.count_cons, ih]
    congr 1
    by_cases hx : x = c
    · subst hx; simp [Py.lowerByte, h']
    · have : Py.lowerByte x ≠ c := fun e => hx (lowerByte_ne h e)
      simp [hx, this]

theorem lower_lower (s : Bytes) : Py.lower (Py.lower s) = Py.lower s := by
  unfold Py.lower
  rw [List.map_map]
  congr 1
  funext c
  simp only [Function.comp, Py.lowerByte]
  split
  · rename_i h
    have h1 := UInt8.le_iff_toNat_le.1 h.1
    have h2 := UInt8.le_iff_toNat_le.1 h.2
    simp at h1 h2
    have ea : (c + 32).toNat = c.toNat + 32 := by simp [UInt8.toNat_add]; omega
    rw [if_neg]
    intro e
    have := UInt8.le_iff_toNat_le.1 e.2
    rw [ea] at this; simp at this; omega
  · rfl

/-- `parse_header` in terms of the cut of the header. -/
theorem parseHeader_of_split (C : Codecs) {h k : Bytes} {rest : List Bytes}
    (H : SplitSemis h (k :: rest)) :
    parseHeader C h =
      if Py.isAscii (Py.lower (Py.strip k)) = false then .error .unicodeDecodeError
      else match parseParams C (rest.map Py.strip) [] with
        | .error e => .error e
        | .ok d => .ok (Py.lower (Py.strip k), d) := by
  unfold parseHeader
  rw [parseHeaderParams_of_split _ h _ H (by omega)]
  rfl

end Verif
