import Verif.Proofs.Chars
import Verif.Spec.Url
/-! Helper lemmas for the URL properties. -/

namespace Verif
open Spec

theorem schemeChar_iff (c : Nat) : schemeChar c = true ↔ c ∈ schemeLetters.map UInt8.toNat := by
  by_cases hc : c < 128
  · have := List.all_eq_true.1 (show (List.range 128).all (fun c => decide (schemeChar c = true ↔
      c ∈ schemeLetters.map UInt8.toNat)) = true by decide +kernel) c (by simpa using hc)
    exact of_decide_eq_true this
  · constructor
    · intro h
      simp only [schemeChar, decide_eq_true_eq] at h
      omega
    · intro h
      have := List.all_eq_true.1 (show (schemeLetters.map UInt8.toNat).all (· < 128) = true by decide +kernel) c h
      simp at this
      omega

theorem lowerCp_eq : lowerCp = lowerLetter := by
  funext c
  by_cases hc : c < 128
  · have := List.all_eq_true.1 (show (List.range 128).all (fun c => decide (lowerCp c = lowerLetter c)) = true
      by decide +kernel) c (by simpa using hc)
    simpa using this
  · unfold lowerCp lowerLetter
    rw [if_neg (by omega), if_neg]
    intro h
    have := List.all_eq_true.1 (show ((b!"ABCDEFGHIJKLMNOPQRSTUVWXYZ").map UInt8.toNat).all (· < 128) = true
      by decide +kernel) c h
    simp at this
    omega

theorem schemeChar_ne_colon {c : Nat} (h : c ∈ schemeLetters.map UInt8.toNat) : c ≠ 58 := by
  rintro rfl; revert h; decide

theorem schemeName_nocolon {t : UStr} (h : SchemeName t) : 58 ∉ t :=
  fun hm => schemeChar_ne_colon (h.2 58 hm) rfl

theorem splitScheme_has {t r : UStr} (h : SchemeName t) :
    splitScheme (t ++ 58 :: r) = (t.map lowerLetter, r) := by
  have hl : 0 < t.length := List.length_pos_iff.2 h.1
  have ha : t.all schemeChar = true := List.all_eq_true.2 fun c hc => (schemeChar_iff c).2 (h.2 c hc)
  simp only [splitScheme, Py.find1_append (schemeName_nocolon h)]
  rw [if_pos ⟨hl, by simpa using ha⟩, lowerCp_eq]
  simp

theorem splitScheme_not {url : UStr} (h : ¬ HasScheme url) : splitScheme url = ([], url) := by
  unfold splitScheme
  cases hf : Py.find [58] url with
  | none => rfl
  | some i =>
    obtain ⟨l, r, e, hl, hi⟩ := Py.find1_some hf
    simp only []
    rw [if_neg]
    rintro ⟨h1, h2⟩
    refine h ⟨l, r, ⟨?_, ?_⟩, e⟩
    · subst hi; exact List.length_pos_iff.1 h1
    · subst hi; rw [e] at h2; intro c hc; exact (schemeChar_iff c).1 (by simpa using List.all_eq_true.1 h2 c (by simpa using hc))

/-- Position of the first character satisfying `p`. -/
theorem findFrom2 (c : Nat) (r : UStr) :
    Py.findFrom [c] (47 :: 47 :: r) 2 = (Py.find [c] r).map (· + 2) := by
  simp [Py.findFrom]

theorem find1_takeWhile (c : Nat) (r : UStr) :
    (match Py.find [c] r with | none => r.length | some i => i) =
      (r.takeWhile (fun x => !(x == c))).length := by
  induction r with
  | nil => simp [Py.find]
  | cons x t ih =>
    by_cases h : c = x
    · subst h; simp [Py.find, List.isPrefixOf]
    · have h' : (x == c) = false := by simpa using Ne.symm h
      simp only [Py.find, List.isPrefixOf, h', List.takeWhile_cons]
      simp only [beq_iff_eq, h, Bool.false_and, Bool.false_eq_true, if_false, Bool.not_false, if_true,
        List.length_cons, ← ih, beq_eq_false_iff_ne.2 h]
      cases Py.find [c] t <;> simp

theorem takeWhile_len_min (p q : Nat → Bool) (r : UStr) :
    (r.takeWhile (fun x => p x && q x)).length =
      min (r.takeWhile p).length (r.takeWhile q).length := by
  induction r with
  | nil => simp
  | cons x t ih =>
    simp only [List.takeWhile_cons]
    cases hp : p x <;> cases hq : q x <;> simp [ih]

theorem netlocDelim_eq (r : UStr) (d c : Nat) (hd : d ≤ r.length) :
    netlocDelim (47 :: 47 :: r) (d + 2) c =
      min d (r.takeWhile (fun x => !(x == c))).length + 2 := by
  rw [netlocDelim, findFrom2, ← find1_takeWhile]
  cases Py.find [c] r with
  | none => simp; omega
  | some i => simp

theorem takeWhile_eq_take (p : Nat → Bool) (r : UStr) :
    r.take (r.takeWhile p).length = r.takeWhile p := by
  induction r with
  | nil => simp
  | cons x t ih => simp only [List.takeWhile_cons]; cases p x <;> simp [ih]

theorem dropWhile_eq_drop (p : Nat → Bool) (r : UStr) :
    r.drop (r.takeWhile p).length = r.dropWhile p := by
  induction r with
  | nil => simp
  | cons x t ih => simp only [List.takeWhile_cons, List.dropWhile_cons]; cases p x <;> simp [ih]

theorem splitNetloc_eq (r : UStr) :
    splitNetloc (47 :: 47 :: r) =
      (hostOf r, r.dropWhile (fun c => !(c == 47 || c == 63 || c == 35))) := by
  have h1 : netlocDelim (47 :: 47 :: r) (47 :: 47 :: r).length 47 =
      (r.takeWhile (fun x => !(x == 47))).length + 2 := by
    rw [show (47 :: 47 :: r).length = r.length + 2 from rfl, netlocDelim_eq _ _ _ (Nat.le_refl _)]
    have := (List.takeWhile_sublist (l := r) (fun x => !(x == 47))).length_le
    omega
  have hle : ∀ p : Nat → Bool, (r.takeWhile p).length ≤ r.length := fun p =>
    (List.takeWhile_sublist _).length_le
  have h2 : netlocDelim (47 :: 47 :: r)
      (netlocDelim (47 :: 47 :: r) (netlocDelim (47 :: 47 :: r) (47 :: 47 :: r).length 47) 63) 35 =
      (hostOf r).length + 2 := by
    rw [h1, netlocDelim_eq _ _ _ (hle _), ← takeWhile_len_min, netlocDelim_eq _ _ _ (hle _),
      ← takeWhile_len_min, hostOf]
    congr 3
    funext c
    simp [Bool.not_or]
  simp only [splitNetloc, h2]
  simp only [List.take_succ_cons, List.drop_succ_cons, List.drop_zero, hostOf, takeWhile_eq_take,
    dropWhile_eq_drop]

theorem hostOf_clean (r : UStr) : ∀ c ∈ hostOf r, c ≠ 47 ∧ c ≠ 63 ∧ c ≠ 35 := by
  intro c hc
  have h := List.all_takeWhile (p := fun c : Nat => !(c == 47 || c == 63 || c == 35)) (l := r)
  have := List.all_eq_true.1 h c hc
  simp at this
  exact ⟨this.1.1, this.1.2, this.2⟩

theorem cutAt_spec (c : Nat) (s : UStr) :
    (∃ F, s = (cutAt c s).1 ++ F ∧ Part [c] (cutAt c s).2 F) ∧ c ∉ (cutAt c s).1 := by
  unfold cutAt
  cases h : Py.splitFirst c s with
  | none => exact ⟨⟨[], by simp, .inr ⟨rfl, rfl⟩⟩, Py.splitFirst_eq_none.1 h⟩
  | some p =>
    obtain ⟨l, r⟩ := p
    obtain ⟨e, hl⟩ := Py.splitFirst_eq_some h
    exact ⟨⟨c :: r, e, .inl rfl⟩, hl⟩

theorem splitParams_spec (s : UStr) :
    (∃ P, s = (splitParams s).1 ++ P ∧ Part [59] (splitParams s).2 P) ∧
    47 ∉ (splitParams s).2 ∧
    ∀ l r, (splitParams s).1 = l ++ 59 :: r → 47 ∈ r := by
  unfold splitParams
  cases h : Py.rfindChar 47 s with
  | none =>
    have hn := Py.rfindChar_eq_none.1 h
    simp only []
    cases hf : Py.find [59] s with
    | none =>
      refine ⟨⟨[], by simp, .inr ⟨rfl, rfl⟩⟩, by simp, fun l r e => ?_⟩
      have := Py.find1_none.1 hf
      dsimp only at e
      rw [e] at this; simp at this
    | some i =>
      obtain ⟨l, r, e, hl, hi⟩ := Py.find1_some hf
      subst hi; subst e
      simp only [List.mem_append, List.mem_cons, not_or] at hn
      refine ⟨⟨59 :: r, by simp, .inl ?_⟩, ?_, ?_⟩
      · simp
      · simp [hn.2]
      · intro l' r' e
        simp at e
        rw [e] at hl; simp at hl
  | some j =>
    obtain ⟨a, b, e, hb, hj⟩ := Py.rfindChar_eq_some h
    subst hj
    have hff : Py.findFrom [59] s a.length = (Py.find [59] (47 :: b)).map (· + a.length) := by
      subst e; simp [Py.findFrom]
    simp only [hff]
    cases hf : Py.find [59] (47 :: b) with
    | none =>
      have hn := Py.find1_none.1 hf
      simp only [Option.map_none]
      refine ⟨⟨[], by simp, .inr ⟨rfl, rfl⟩⟩, by simp, fun l r e' => ?_⟩
      rw [e] at e'
      rcases List.append_eq_append_iff.1 e' with ⟨x, h1, h2⟩ | ⟨x, h1, h2⟩
      · exact absurd (by rw [h2]; simp : (59 : Nat) ∈ 47 :: b) hn
      · cases x with
        | nil => simp at h2
        | cons y ys => simp at h2; rw [h2.2]; simp
    | some i =>
      obtain ⟨l, r, e2, hl, hi⟩ := Py.find1_some hf
      subst hi
      simp only [Option.map_some]
      have es : s = (a ++ l) ++ 59 :: r := by rw [e, e2]; simp
      have t1 : s.take (l.length + a.length) = a ++ l := by
        rw [es, Nat.add_comm, ← List.length_append, List.take_left]
      have t2 : s.drop (l.length + a.length + 1) = r := by
        rw [es, Nat.add_comm l.length, ← List.length_append, ← List.drop_drop, List.drop_left]; rfl
      rw [t1, t2]
      obtain ⟨l', rfl⟩ : ∃ l', l = 47 :: l' := by
        cases l with
        | nil => simp at e2
        | cons y ys => simp at e2; exact ⟨ys, by simp [e2.1]⟩
      simp at e2
      refine ⟨⟨59 :: r, by simpa using es, .inl rfl⟩, ?_, ?_⟩
      · intro hm; exact hb (by rw [e2]; simp [hm])
      · intro l2 r2 e3
        rcases List.append_eq_append_iff.1 e3 with ⟨x, h1, h2⟩ | ⟨x, h1, h2⟩
        · exact absurd (by rw [h2]; simp : (59 : Nat) ∈ 47 :: l') hl
        · cases x with
          | nil => simp at h2
          | cons y ys => simp at h2; rw [h2.2]; simp

/-- What `_urlsplit` computes. -/
theorem urlSplit_spec {url : UStr} {s : UrlSplit} (h : urlSplit url = .ok s) :
    ∃ S N Q F, url = S ++ N ++ s.path ++ Q ++ F ∧
    SchemePart s.scheme S ∧ Part [47, 47] s.netloc N ∧
    Part [63] s.query Q ∧ Part [35] s.fragment F ∧
    (N = [] → ¬ [47, 47] <+: s.path ++ Q ++ F) ∧
    (HasScheme url → s.scheme ≠ []) ∧
    (∀ c ∈ s.netloc, c ≠ 47 ∧ c ≠ 63 ∧ c ≠ 35) ∧
    (∀ c ∈ s.path, c ≠ 63 ∧ c ≠ 35) ∧ (∀ c ∈ s.query, c ≠ 35) := by
  unfold urlSplit at h
  obtain ⟨S, sc, rest, hS, hsp, hu, hhas⟩ : ∃ S sc rest, SchemePart sc S ∧ splitScheme url = (sc, rest) ∧
      url = S ++ rest ∧ (HasScheme url → sc ≠ []) := by
    by_cases hs : HasScheme url
    · obtain ⟨t, r, ht, e⟩ := hs
      refine ⟨t ++ [58], t.map lowerLetter, r, .inl ⟨t, ht, rfl, rfl⟩, ?_, by simp [e], fun _ => by simp [ht.1]⟩
      rw [e, splitScheme_has ht]
    · exact ⟨[], [], url, .inr ⟨rfl, rfl⟩, splitScheme_not hs, by simp, fun h => absurd h hs⟩
  rw [hsp] at h
  dsimp only at h
  obtain ⟨N, nl, rest2, hN, hnl, hr, hclean, hN0⟩ : ∃ N nl rest2, Part [47, 47] nl N ∧
      (if rest.take 2 = [47, 47] then splitNetloc rest else ([], rest)) = (nl, rest2) ∧
      rest = N ++ rest2 ∧ (∀ c ∈ nl, c ≠ 47 ∧ c ≠ 63 ∧ c ≠ 35) ∧ (N = [] → ¬ [47, 47] <+: rest2) := by
    by_cases h2 : rest.take 2 = [47, 47]
    · obtain ⟨r, rfl⟩ : ∃ r, rest = 47 :: 47 :: r := by
        refine ⟨rest.drop 2, ?_⟩
        conv_lhs => rw [← List.take_append_drop 2 rest, h2]
        rfl
      rw [if_pos h2, splitNetloc_eq]
      refine ⟨47 :: 47 :: hostOf r, _, _, .inl rfl, rfl, ?_, hostOf_clean r, by simp⟩
      simp [hostOf, List.takeWhile_append_dropWhile]
    · rw [if_neg h2]
      refine ⟨[], [], rest, .inr ⟨rfl, rfl⟩, rfl, by simp, by simp, fun _ hp => h2 ?_⟩
      obtain ⟨t, rfl⟩ := hp
      simp
  rw [hnl] at h
  dsimp only at h
  split at h
  · simp at h
  · obtain ⟨⟨F, eF, hF⟩, hF2⟩ := cutAt_spec 35 rest2
    obtain ⟨⟨Q, eQ, hQ⟩, hQ2⟩ := cutAt_spec 63 (cutAt 35 rest2).1
    simp only [Except.ok.injEq] at h
    subst h
    dsimp only
    have hmem : ∀ c, c ∈ (cutAt 63 (cutAt 35 rest2).1).1 → c ∈ (cutAt 35 rest2).1 := by
      intro c hc; rw [eQ]; exact List.mem_append_left _ hc
    refine ⟨S, N, Q, F, ?_, hS, hN, hQ, hF, ?_, hhas, hclean, ?_, ?_⟩
    · rw [hu, hr]
      conv_lhs => rw [eF, eQ]
      simp
    · intro hn
      have := hN0 hn
      rw [eF, eQ] at this
      exact this
    · intro c hc
      exact ⟨fun e => hQ2 (e ▸ hc), fun e => hF2 (e ▸ hmem c hc)⟩
    · intro c hc e
      refine hF2 ?_
      rw [eQ]
      rcases hQ with hQ | ⟨_, hQ⟩
      · rw [hQ]; subst e; simp [hc]
      · rw [hQ] at hc; simp at hc

/-- The path, query and fragment split of `_urlsplit`. -/
def tailSplit (sc nl rest : UStr) : UrlSplit :=
  { scheme := sc, netloc := nl, path := (cutAt 63 (cutAt 35 rest).1).1,
    query := (cutAt 63 (cutAt 35 rest).1).2, fragment := (cutAt 35 rest).2 }

/-- What follows the host. -/
def afterHost (r : UStr) : UStr := r.dropWhile (fun c => !(c == 47 || c == 63 || c == 35))

theorem take2 {r : UStr} : r.take 2 = [47, 47] ↔ ∃ r', r = 47 :: 47 :: r' := by
  constructor
  · intro h2
    refine ⟨r.drop 2, ?_⟩
    conv_lhs => rw [← List.take_append_drop 2 r, h2]
    rfl
  · rintro ⟨r', rfl⟩; simp

theorem hasScheme_not_slash {r : UStr} : ¬ HasScheme (47 :: r) := by
  rintro ⟨t, r', ht, e⟩
  cases t with
  | nil => exact ht.1 rfl
  | cons x xs =>
    simp at e
    have := ht.2 x (by simp)
    rw [← e.1] at this; revert this; decide

theorem urlSplit_abs {t r : UStr} (ht : SchemeName t) :
    urlSplit (t ++ 58 :: 47 :: 47 :: r) =
      if badBrackets (hostOf r) = true then .error .valueError
      else .ok (tailSplit (t.map lowerLetter) (hostOf r) (afterHost r)) := by
  unfold urlSplit
  rw [splitScheme_has ht]
  have h2 : (47 :: 47 :: r).take 2 = [47, 47] := rfl
  simp only [if_pos h2, splitNetloc_eq, true_and, h2]
  rfl

theorem urlSplit_opaque {t r : UStr} (ht : SchemeName t) (h : ¬ ∃ r', r = 47 :: 47 :: r') :
    urlSplit (t ++ 58 :: r) = .ok (tailSplit (t.map lowerLetter) [] r) := by
  unfold urlSplit
  rw [splitScheme_has ht]
  have h2 : ¬ r.take 2 = [47, 47] := fun h' => h (take2.1 h')
  simp only [if_neg h2, h2, false_and, if_false]
  rfl

theorem urlSplit_rel {r : UStr} :
    urlSplit (47 :: 47 :: r) =
      if badBrackets (hostOf r) = true then .error .valueError
      else .ok (tailSplit [] (hostOf r) (afterHost r)) := by
  unfold urlSplit
  rw [splitScheme_not hasScheme_not_slash]
  have h2 : (47 :: 47 :: r).take 2 = [47, 47] := rfl
  simp only [if_pos h2, splitNetloc_eq, true_and, h2]
  rfl

theorem urlSplit_plain {url : UStr} (h1 : ¬ HasScheme url) (h : ¬ ∃ r', url = 47 :: 47 :: r') :
    urlSplit url = .ok (tailSplit [] [] url) := by
  unfold urlSplit
  rw [splitScheme_not h1]
  have h2 : ¬ url.take 2 = [47, 47] := fun h' => h (take2.1 h')
  simp only [if_neg h2, h2, false_and, if_false]
  rfl

/-- The four shapes of a URL. -/
theorem url_cases (url : UStr) :
    (∃ t r, SchemeName t ∧ url = t ++ 58 :: 47 :: 47 :: r) ∨
    (∃ t r, SchemeName t ∧ (¬ ∃ r', r = 47 :: 47 :: r') ∧ url = t ++ 58 :: r) ∨
    (∃ r, url = 47 :: 47 :: r) ∨ (¬ HasScheme url ∧ ¬ ∃ r', url = 47 :: 47 :: r') := by
  by_cases hs : HasScheme url
  · obtain ⟨t, r, ht, e⟩ := hs
    by_cases h2 : ∃ r', r = 47 :: 47 :: r'
    · obtain ⟨r', rfl⟩ := h2
      exact .inl ⟨t, r', ht, e⟩
    · exact .inr (.inl ⟨t, r, ht, h2, e⟩)
  · by_cases h2 : ∃ r', url = 47 :: 47 :: r'
    · exact .inr (.inr (.inl h2))
    · exact .inr (.inr (.inr ⟨hs, h2⟩))

theorem badBrackets_iff {h : UStr} : badBrackets h = true ↔ ¬ (91 ∈ h ↔ 93 ∈ h) := by
  simp [badBrackets]; tauto

/-- The decomposition of a URL with a scheme is unique. -/
theorem scheme_unique {t t' r r' : UStr} (h : SchemeName t) (h' : SchemeName t')
    (e : t ++ 58 :: r = t' ++ 58 :: r') : t = t' ∧ r = r' := by
  have h1 := splitScheme_has (r := r) h
  have a := Py.splitFirst_app (r := r) (schemeName_nocolon h)
  have b := Py.splitFirst_app (r := r') (schemeName_nocolon h')
  rw [e, b] at a
  simp only [Option.some.injEq, Prod.mk.injEq] at a
  exact ⟨a.1.symm, a.2.symm⟩

theorem urlParse_head {up : List UStr} {url : UStr} :
    (∀ e, urlSplit url = .error e → urlParse up url = .error e) ∧
    (∀ s, urlSplit url = .ok s → ∃ p, urlParse up url = .ok p ∧ p.scheme = s.scheme ∧
      p.netloc = s.netloc) := by
  constructor
  · intro e h; simp [urlParse, h]
  · intro s h
    simp only [urlParse, h]
    split <;> exact ⟨_, rfl, rfl, rfl⟩

end Verif
