import Verif.Model.Util
import Verif.Spec.Util
import Verif.Proofs.Quote
import Verif.Proofs.Header2
import Verif.Proofs.RequestHead
/-!
# Base 36, URL-safe base64, entity tags (C58–C60, C71)
-/

namespace Verif
open Spec

/-! ### C58 -/

theorem charSet36_get (v : Nat) (h : v < 36) :
    ∃ c, charSet36[v]? = some c ∧ digit36 c = some v ∧ Py.isSpace c = false ∧ c ≠ 45 ∧ c ≠ 43 ∧
      (v ≠ 0 → c ≠ 48) := by
  have : ∀ v : Fin 36, ∃ c, charSet36[v.val]? = some c ∧ digit36 c = some v.val ∧
      Py.isSpace c = false ∧ c ≠ 45 ∧ c ≠ 43 ∧ (v.val ≠ 0 → c ≠ 48) := by
    intro v
    have h : v.val < charSet36.length := v.isLt
    refine ⟨charSet36[v.val], List.getElem?_eq_getElem h, ?_⟩
    revert v; decide +kernel
  exact this ⟨v, h⟩

theorem digits36_append (a b : Bytes) (n : Nat) :
    digits36 (a ++ b) n = (digits36 a n).bind (digits36 b) := by
  induction a generalizing n with
  | nil => rfl
  | cons c t ih =>
    simp only [List.cons_append, digits36]
    cases digit36 c with
    | none => rfl
    | some v => exact ih _

theorem b36Loop_spec (fuel : Nat) : ∀ (i : Nat) (acc : Bytes), i ≤ fuel →
    ∃ ds, b36Loop fuel i acc = ds ++ acc ∧ Num36 ds i ∧ digits36 ds 0 = some i ∧
      (∀ c ∈ ds, Py.isSpace c = false ∧ c ≠ 45 ∧ c ≠ 43) ∧
      (i ≠ 0 → ds ≠ [] ∧ ds.head? ≠ some 48) ∧ ∀ n, ds.length ≤ n ↔ i < 36 ^ n := by
  induction fuel with
  | zero =>
    intro i acc h
    have : i = 0 := by omega
    subst this
    exact ⟨[], rfl, .nil, rfl, by simp, by simp, fun n => by simp⟩
  | succ fuel ih =>
    intro i acc h
    unfold b36Loop
    by_cases h0 : i = 0
    · subst h0
      exact ⟨[], rfl, .nil, rfl, by simp, by simp, fun n => by simp⟩
    · rw [if_neg h0]
      obtain ⟨c, c1, c2, c3, c4, c5, c6⟩ := charSet36_get (i % 36) (Nat.mod_lt _ (by omega))
      obtain ⟨ds, a1, a2, a3, a4, a5, a6⟩ := ih (i / 36) (c :: acc) (by omega)
      rw [c1]
      refine ⟨ds ++ [c], by rw [Option.getD_some, a1]; simp, ?_, ?_, ?_, ?_, ?_⟩
      · have := Num36.digit a2 c1
        rwa [show i / 36 * 36 + i % 36 = i by omega] at this
      · rw [digits36_append, a3]
        simp only [Option.bind_some, digits36, c2]
        congr 1
        omega
      · intro x hx
        rcases List.mem_append.1 hx with hx | hx
        · exact a4 x hx
        · rw [List.mem_singleton.1 hx]; exact ⟨c3, c4, c5⟩
      · intro _
        refine ⟨by simp, ?_⟩
        by_cases hd : i / 36 = 0
        · have : ds = [] := by
            have := (a6 0).2 (by rw [hd]; simp)
            exact List.eq_nil_of_length_eq_zero (by omega)
          rw [this]
          simp only [List.nil_append, List.head?_cons, ne_eq, Option.some.injEq]
          exact c6 (by omega)
        · obtain ⟨b1, b2⟩ := a5 hd
          obtain ⟨x, t, rfl⟩ := List.exists_cons_of_ne_nil b1
          simpa using b2
      · intro n
        cases n with
        | zero => simp; omega
        | succ n =>
          rw [List.length_append, List.length_singleton, Nat.add_le_add_iff_right, a6 n,
            Nat.div_lt_iff_lt_mul (by omega), Nat.pow_succ]

theorem intToBase36_nat (i : Nat) :
    ∃ ds, intToBase36 i = .ok ds ∧ Num36 ds i ∧ digits36 ds 0 = some i ∧ ds ≠ [] ∧
      (∀ c ∈ ds, Py.isSpace c = false ∧ c ≠ 45 ∧ c ≠ 43) ∧ (i ≠ 0 → ds.head? ≠ some 48) ∧
      (13 < ds.length ↔ 36 ^ 13 ≤ i) := by
  unfold intToBase36
  rw [if_neg (by omega)]
  by_cases h : i < 36
  · rw [if_pos (by omega)]
    obtain ⟨c, c1, c2, c3, c4, c5, c6⟩ := charSet36_get i h
    have e : ((i : Int).toNat) = i := rfl
    rw [e, c1]
    refine ⟨[c], rfl, ?_, ?_, by simp, ?_, ?_, ?_⟩
    · have := Num36.digit Num36.nil c1
      simpa using this
    · simp [digits36, c2]
    · intro x hx; rw [List.mem_singleton.1 hx]; exact ⟨c3, c4, c5⟩
    · intro h0; simpa using c6 h0
    · simp; omega
  · rw [if_neg (by omega)]
    obtain ⟨ds, a1, a2, a3, a4, a5, a6⟩ := b36Loop_spec i i [] (Nat.le_refl _)
    have e : ((i : Int).toNat) = i := rfl
    rw [e, a1, List.append_nil]
    obtain ⟨b1, b2⟩ := a5 (by omega)
    refine ⟨ds, rfl, a2, a3, b1, a4, fun _ => b2, ?_⟩
    have := a6 13
    omega

/-- **C58**.  For every natural number the text is its base 36 numeral, without leading zeros, and is
read back below `36^13`; from there on the text is too long and reading raises `ValueError`. -/
theorem C58_roundtrip (i : Nat) :
    ∃ s, intToBase36 i = .ok s ∧ Num36 s i ∧ s ≠ [] ∧ (i ≠ 0 → s.head? ≠ some 48) ∧
      (i < 36 ^ 13 → base36ToInt s = .ok i) ∧ (36 ^ 13 ≤ i → base36ToInt s = .error .valueError) := by
  obtain ⟨s, a1, a2, a3, a4, a5, a6, a7⟩ := intToBase36_nat i
  refine ⟨s, a1, a2, a4, a6, fun h => ?_, fun h => ?_⟩
  · unfold base36ToInt
    rw [if_neg (by omega)]
    have hst : Py.strip s = s := stripBy_id
      (fun c hc => (a5 c (List.mem_of_mem_head? hc)).1)
      (fun c hc => (a5 c (List.mem_of_getLast? hc)).1)
    have : int36 s = some (i : Int) := by
      unfold int36
      rw [hst]
      obtain ⟨x, t, rfl⟩ := List.exists_cons_of_ne_nil a4
      have hx := a5 x (by simp)
      have : sign36 (x :: t) = (false, x :: t) := by
        unfold sign36
        split
        · rename_i h; simp at h; exact absurd h.1 hx.2.1
        · rename_i h; simp at h; exact absurd h.1 hx.2.2
        · rfl
      simp only [this]
      rw [if_neg (by simp), a3]
      rfl
    rw [this]
  · unfold base36ToInt
    rw [if_pos (a7.2 h)]

/-- **C58**, negative numbers. -/
theorem C58_negative (i : Int) (h : i < 0) : intToBase36 i = .error .valueError := by
  unfold intToBase36; rw [if_pos h]

/-- Different numbers have different texts. -/
theorem C58_injective (i j : Int) (s : Bytes) (hi : intToBase36 i = .ok s) (hj : intToBase36 j = .ok s) :
    i = j := by
  have nn : ∀ k : Int, intToBase36 k = .ok s → ∃ n : Nat, k = n := by
    intro k hk
    by_cases h : k < 0
    · rw [C58_negative k h] at hk; cases hk
    · exact ⟨k.toNat, by omega⟩
  obtain ⟨m, rfl⟩ := nn i hi
  obtain ⟨n, rfl⟩ := nn j hj
  obtain ⟨s1, a1, _, a3, _⟩ := intToBase36_nat m
  obtain ⟨s2, b1, _, b3, _⟩ := intToBase36_nat n
  rw [a1] at hi; rw [b1] at hj
  cases hi; cases hj
  rw [a3] at b3; cases b3; rfl

example : (intToBase36 123456789).toOption = some b!"21i3v9" ∧ (base36ToInt b!"21i3v9").toOption = some 123456789 ∧
    (base36ToInt b!" +Z ").toOption = some 35 ∧ (base36ToInt b!"").toOption = none := by decide +kernel

/-! ### C59 -/

theorem b64char_spec (v : Nat) (h : v < 64) :
    UrlSafe (b64char v) ∧ Py.b64val (fromUrlsafe (b64char v)) = some v ∧
      fromUrlsafe (b64char v) ≠ 61 ∧ b64char v ≠ 61 ∧ b64char v ≠ 10 ∧ b64char v < 128 := by
  have : ∀ v : Fin 64, UrlSafe (b64char v) ∧ Py.b64val (fromUrlsafe (b64char v)) = some v.val ∧
      fromUrlsafe (b64char v) ≠ 61 ∧ b64char v ≠ 61 ∧ b64char v ≠ 10 ∧ b64char v < 128 := by
    unfold UrlSafe; decide +kernel
  exact this ⟨v, h⟩

theorem rstrip_keep {p : UInt8 → Bool} {a b : Bytes} (ha : ∀ c ∈ a, p c = false)
    (hb : ∀ c ∈ b, p c = true) : rstripBy p (a ++ b) = a := by
  unfold rstripBy
  rw [List.reverse_append, List.dropWhile_append_of_pos (by simpa using hb)]
  cases hr : a.reverse with
  | nil => simpa using hr
  | cons x t =>
    rw [List.dropWhile_cons_of_neg (by rw [ha x (by rw [← List.mem_reverse, hr]; simp)]; simp), ← hr,
      List.reverse_reverse]

theorem b64_split (s : Bytes) : ∃ body, (∀ c ∈ body, UrlSafe c ∧ c < 128 ∧ c ≠ 61 ∧ c ≠ 10) ∧
    (∃ n, urlsafeB64encode s = body ++ List.replicate n 61) ∧
    ∀ (out : Bytes), Py.a2bLoop ((body ++ List.replicate (body.length % 4) 61).map fromUrlsafe) 0 0 0
      out = some (out ++ s) := by
  induction s using urlsafeB64encode.induct with
  | case1 => exact ⟨[], by simp, ⟨0, rfl⟩, fun out => by simp [Py.a2bLoop]⟩
  | case2 a =>
    have ha := a.toNat_lt
    obtain ⟨x1, x2, x3, x4, x5, x6⟩ := b64char_spec (a.toNat / 4) (by omega)
    obtain ⟨y1, y2, y3, y4, y5, y6⟩ := b64char_spec (a.toNat % 4 * 16) (by omega)
    refine ⟨[b64char (a.toNat / 4), b64char (a.toNat % 4 * 16)], ?_, ⟨2, rfl⟩, fun out => ?_⟩
    · intro c hc
      simp only [List.mem_cons, List.not_mem_nil, or_false] at hc
      rcases hc with rfl | rfl
      · exact ⟨x1, x6, x4, x5⟩
      · exact ⟨y1, y6, y4, y5⟩
    · have e : (a.toNat / 4 * 64 + a.toNat % 4 * 16) / 16 = a.toNat := by omega
      have p61 : fromUrlsafe 61 = 61 := rfl
      simp [Py.a2bLoop, Py.b64nextValid, x2, x3, y2, y3, p61, List.replicate, e]
  | case3 a b =>
    have ha := a.toNat_lt
    have hb := b.toNat_lt
    obtain ⟨x1, x2, x3, x4, x5, x6⟩ := b64char_spec (a.toNat / 4) (by omega)
    obtain ⟨y1, y2, y3, y4, y5, y6⟩ := b64char_spec (a.toNat % 4 * 16 + b.toNat / 16) (by omega)
    obtain ⟨z1, z2, z3, z4, z5, z6⟩ := b64char_spec (b.toNat % 16 * 4) (by omega)
    refine ⟨[b64char (a.toNat / 4), b64char (a.toNat % 4 * 16 + b.toNat / 16),
      b64char (b.toNat % 16 * 4)], ?_, ⟨1, rfl⟩, fun out => ?_⟩
    · intro c hc
      simp only [List.mem_cons, List.not_mem_nil, or_false] at hc
      rcases hc with rfl | rfl | rfl
      · exact ⟨x1, x6, x4, x5⟩
      · exact ⟨y1, y6, y4, y5⟩
      · exact ⟨z1, z6, z4, z5⟩
    · have e : (a.toNat / 4 * 64 + (a.toNat % 4 * 16 + b.toNat / 16)) / 16 = a.toNat := by omega
      have e2 : ((a.toNat / 4 * 64 + (a.toNat % 4 * 16 + b.toNat / 16)) % 16 * 64 + b.toNat % 16 * 4) / 4
        = b.toNat := by omega
      have p61 : fromUrlsafe 61 = 61 := rfl
      simp [Py.a2bLoop, Py.b64nextValid, x2, x3, y2, y3, z2, z3, p61, List.replicate, e, e2]
  | case4 a b c t ih =>
    have ha := a.toNat_lt
    have hb := b.toNat_lt
    have hc := c.toNat_lt
    obtain ⟨body, i1, ⟨n, i2⟩, i3⟩ := ih
    obtain ⟨x1, x2, x3, x4, x5, x6⟩ := b64char_spec (a.toNat / 4) (by omega)
    obtain ⟨y1, y2, y3, y4, y5, y6⟩ := b64char_spec (a.toNat % 4 * 16 + b.toNat / 16) (by omega)
    obtain ⟨z1, z2, z3, z4, z5, z6⟩ := b64char_spec (b.toNat % 16 * 4 + c.toNat / 64) (by omega)
    obtain ⟨w1, w2, w3, w4, w5, w6⟩ := b64char_spec (c.toNat % 64) (by omega)
    refine ⟨b64char (a.toNat / 4) :: b64char (a.toNat % 4 * 16 + b.toNat / 16) ::
      b64char (b.toNat % 16 * 4 + c.toNat / 64) :: b64char (c.toNat % 64) :: body, ?_, ⟨n, ?_⟩,
      fun out => ?_⟩
    · intro d hd
      simp only [List.mem_cons] at hd
      rcases hd with rfl | rfl | rfl | rfl | hd
      · exact ⟨x1, x6, x4, x5⟩
      · exact ⟨y1, y6, y4, y5⟩
      · exact ⟨z1, z6, z4, z5⟩
      · exact ⟨w1, w6, w4, w5⟩
      · exact i1 d hd
    · rw [urlsafeB64encode, i2]; rfl
    · have e : (a.toNat / 4 * 64 + (a.toNat % 4 * 16 + b.toNat / 16)) / 16 = a.toNat := by omega
      have e2 : ((a.toNat / 4 * 64 + (a.toNat % 4 * 16 + b.toNat / 16)) % 16 * 64 +
        (b.toNat % 16 * 4 + c.toNat / 64)) / 4 = b.toNat := by omega
      have e3 : ((a.toNat / 4 * 64 + (a.toNat % 4 * 16 + b.toNat / 16)) % 16 * 64 +
        (b.toNat % 16 * 4 + c.toNat / 64)) % 4 * 64 + c.toNat % 64 = c.toNat := by omega
      have el : (b64char (a.toNat / 4) :: b64char (a.toNat % 4 * 16 + b.toNat / 16) ::
        b64char (b.toNat % 16 * 4 + c.toNat / 64) :: b64char (c.toNat % 64) :: body).length % 4 =
        body.length % 4 := by simp only [List.length_cons]; omega
      rw [el]
      have h3 := i3 (out ++ [a, b, c])
      simp only [List.cons_append, List.map_cons]
      simp [Py.a2bLoop, x2, x3, y2, y3, z2, z3, w2, w3, e, e2, e3, Nat.mod_one] at h3 ⊢
      exact h3

/-- **C59**.  Every byte string comes back, and its text has only letters, digits, `-` and `_`. -/
theorem C59_roundtrip (s : Bytes) :
    urlsafeBase64Decode (urlsafeBase64Encode s) = .ok s ∧
      ∀ c ∈ urlsafeBase64Encode s, UrlSafe c := by
  obtain ⟨body, h1, ⟨n, h2⟩, h3⟩ := b64_split s
  have e : urlsafeBase64Encode s = body := by
    unfold urlsafeBase64Encode
    rw [h2]
    apply rstrip_keep
    · intro c hc
      obtain ⟨_, _, a, b⟩ := h1 c hc
      simp [a, b]
    · intro c hc
      rw [List.eq_of_mem_replicate hc]; rfl
  rw [e]
  refine ⟨?_, fun c hc => (h1 c hc).1⟩
  unfold urlsafeBase64Decode
  rw [if_neg (by
    simp only [Bool.not_eq_false]
    unfold Py.isAscii
    rw [List.all_eq_true]
    intro c hc
    simpa using (h1 c hc).2.1)]
  unfold Py.b64decode
  rw [h3 []]
  rfl

example : urlsafeBase64Encode [251, 255, 190, 97] = b!"-_--YQ" ∧
    (urlsafeBase64Decode b!"-_--YQ").toOption = some [251, 255, 190, 97] := by decide +kernel

/-- **C71** is false of the code: malformed input raises `TypeError`, not `ValueError`. -/
theorem C71_refuted : ∃ s : Bytes, urlsafeBase64Decode s = .error .typeError :=
  ⟨b!"a", by rfl⟩

/-- **C71**, what can happen: a result, `UnicodeDecodeError` (outside ASCII, a `ValueError`) or
`TypeError`. -/
theorem C71_partial (s : Bytes) : (∃ b, urlsafeBase64Decode s = .ok b) ∨
    urlsafeBase64Decode s = .error .typeError ∨
    (urlsafeBase64Decode s = .error .unicodeDecodeError ∧ ∃ c ∈ s, 128 ≤ c) := by
  unfold urlsafeBase64Decode
  split
  · rename_i h
    right; right
    refine ⟨rfl, ?_⟩
    unfold Py.isAscii at h
    rw [List.all_eq_false] at h
    obtain ⟨c, h1, h2⟩ := h
    exact ⟨c, h1, by simpa using h2⟩
  · split
    · exact .inr (.inl rfl)
    · exact .inl ⟨_, rfl⟩

/-! ### C60 -/

theorem etagMatch_iff (s : Bytes) : etagMatch s = true ↔ ETag s := by
  have quoted : ∀ t : Bytes, (match t with
      | 34 :: r => decide (r.getLast? = some 34) && r.dropLast.all (· ≠ 34)
      | _ => false) = true ↔ ∃ q, 34 ∉ q ∧ t = [34] ++ q ++ [34] := by
    intro t
    constructor
    · intro h
      split at h
      · rename_i r
        simp only [Bool.and_eq_true, decide_eq_true_eq, List.all_eq_true] at h
        refine ⟨r.dropLast, fun hm => h.2 34 hm rfl, ?_⟩
        have hr : r ≠ [] := by rintro rfl; simp at h
        have := List.dropLast_append_getLast? 34 h.1
        simp [this]
      · cases h
    · rintro ⟨q, h1, rfl⟩
      simp only [List.singleton_append, List.cons_append, Bool.and_eq_true, decide_eq_true_eq]
      refine ⟨by simp, ?_⟩
      rw [List.dropLast_concat, List.all_eq_true]
      intro c hc
      simp only [decide_eq_true_eq]
      rintro rfl
      exact h1 hc
  unfold etagMatch
  simp only
  refine (quoted _).trans ?_
  constructor
  · rintro ⟨q, h1, h2⟩
    split at h2
    · rename_i hp
      obtain ⟨t, rfl⟩ := List.isPrefixOf_iff_prefix.1 hp
      refine ⟨b!"W/", q, .inr rfl, h1, ?_⟩
      have : (b!"W/" ++ t).drop 2 = t := rfl
      rw [this] at h2
      rw [h2]; simp
    · exact ⟨[], q, .inl rfl, h1, by simpa using h2⟩
  · rintro ⟨w, q, rfl | rfl, h1, rfl⟩
    · refine ⟨q, h1, ?_⟩
      rw [if_neg (by simp [Py.startsWith, List.isPrefixOf])]
      simp
    · refine ⟨q, h1, ?_⟩
      rw [if_pos (by simp [Py.startsWith, List.isPrefixOf])]
      simp

theorem takeWhile_mem {p : UInt8 → Bool} {l : Bytes} {c : UInt8} (h : c ∈ l.takeWhile p) : p c = true := by
  have := List.all_takeWhile (p := p) (l := l)
  rw [List.all_eq_true] at this
  exact this c h

theorem strip_trimmed (s : Bytes) : Trimmed s (Py.strip s) := by
  have h1 := List.takeWhile_append_dropWhile (p := Py.isSpace) (l := s)
  generalize hd : s.dropWhile Py.isSpace = d at h1
  have h2 := List.takeWhile_append_dropWhile (p := Py.isSpace) (l := d.reverse)
  refine ⟨s.takeWhile Py.isSpace, (d.reverse.takeWhile Py.isSpace).reverse, ?_, ?_, ?_⟩
  · have e : d = (d.reverse.dropWhile Py.isSpace).reverse ++ (d.reverse.takeWhile Py.isSpace).reverse := by
      rw [← List.reverse_append, h2, List.reverse_reverse]
    unfold Py.strip Py.stripBy
    rw [hd, List.append_assoc, ← e, h1]
  · intro c hc
    rcases List.mem_append.1 hc with hc | hc
    · exact takeWhile_mem hc
    · exact takeWhile_mem (List.mem_reverse.1 hc)
  · unfold Py.strip Py.stripBy
    rw [hd]
    have key : ∀ (l : Bytes) c, (l.dropWhile Py.isSpace).head? = some c → Py.isSpace c = false := by
      intro l c hc
      have := List.head?_dropWhile_not Py.isSpace l
      rw [hc] at this
      simpa using this
    rintro c (hc | hc)
    · have hne : (d.reverse.dropWhile Py.isSpace) ≠ [] := by
        intro h; rw [h] at hc; cases hc
      have e : d = (d.reverse.dropWhile Py.isSpace).reverse ++
          (d.reverse.takeWhile Py.isSpace).reverse := by
        rw [← List.reverse_append, h2, List.reverse_reverse]
      apply key s
      rw [hd, e]
      cases hr : (d.reverse.dropWhile Py.isSpace).reverse with
      | nil => exact absurd (by simpa using hr) hne
      | cons x t => rw [hr] at hc; exact hc
    · rw [List.getLast?_reverse] at hc
      exact key _ c hc

theorem trimmed_unique {s t : Bytes} (h : Trimmed s t) : t = Py.strip s := by
  obtain ⟨l, r, rfl, h1, h2⟩ := h
  exact (strip_pad h1 h2).symm

theorem splitChar_commaList (s : Bytes) : CommaList (Py.splitChar 44 s) s := by
  induction s with
  | nil => exact .one (by simp)
  | cons x t ih =>
    unfold Py.splitChar
    by_cases hx : x = 44
    · rw [if_pos hx, hx]
      exact .more (s := []) (by simp) ih
    · rw [if_neg hx]
      generalize Py.splitChar 44 t = items at ih
      cases ih with
      | one h => exact .one (by simp [Ne.symm hx, h])
      | more h1 h2 =>
        rename_i s items rest
        have := CommaList.more (s := x :: s) (by simp [Ne.symm hx, h1]) h2
        simpa using this

theorem commaList_unique {a b : List Bytes} {s : Bytes} (h : CommaList a s) (g : CommaList b s) : a = b := by
  have key : ∀ {u v p q : Bytes}, 44 ∉ u → 44 ∉ v → u ++ [44] ++ p = v ++ [44] ++ q → u = v ∧ p = q := by
    intro u
    induction u with
    | nil =>
      intro v p q _ hv e
      cases v with
      | nil => simpa using e
      | cons y v => simp at e hv; exact absurd e.1 hv.1
    | cons x u ih =>
      intro v p q hu hv e
      cases v with
      | nil => simp at e hu; exact absurd e.1.symm hu.1
      | cons y v =>
        simp only [List.cons_append, List.cons.injEq] at e
        simp only [List.mem_cons, not_or] at hu hv
        obtain ⟨e1, e2⟩ := ih hu.2 hv.2 (by simpa using e.2)
        exact ⟨by rw [e.1, e1], e2⟩
  induction h generalizing b with
  | one h =>
    cases g with
    | one _ => rfl
    | more g1 g2 => simp at h
  | more h1 h2 ih =>
    rename_i u items rest
    generalize hs : u ++ [44] ++ rest = s at g
    cases g with
    | one g => rw [← hs] at g; simp at g
    | more g1 g2 =>
      obtain ⟨rfl, rfl⟩ := key h1 g1 hs
      rw [ih g2]

/-- **C60**, `parse_etags`: `['*']` for `*` (white space around it aside), otherwise the entity tags
among the items of the comma-separated list, in order, without the white space around them. -/
theorem C60_parse (s : Bytes) :
    (Trimmed s b!"*" → parseEtags s = [b!"*"]) ∧
    (¬ Trimmed s b!"*" → ∃ items, CommaList items s ∧ TagsOf items (parseEtags s)) := by
  constructor
  · intro h
    unfold parseEtags
    rw [if_pos (trimmed_unique h).symm]
  · intro h
    refine ⟨_, splitChar_commaList s, ?_⟩
    unfold parseEtags
    rw [if_neg (by intro e; apply h; rw [← e]; exact strip_trimmed s)]
    generalize Py.splitChar 44 s = items
    induction items with
    | nil => exact .nil
    | cons x t ih =>
      rw [List.map_cons, List.filter_cons]
      split
      · rename_i hm
        exact .tag (strip_trimmed x) ((etagMatch_iff _).1 hm) ih
      · rename_i hm
        exact .other (strip_trimmed x) (fun hx => hm ((etagMatch_iff _).2 hx)) ih

/-- The specification of `C60_parse` determines the result. -/
theorem C60_unique {s : Bytes} {i1 i2 t1 t2 : List Bytes} (h1 : CommaList i1 s) (h2 : CommaList i2 s)
    (g1 : TagsOf i1 t1) (g2 : TagsOf i2 t2) : t1 = t2 := by
  have := commaList_unique h1 h2
  subst this
  clear h1 h2
  induction g1 generalizing t2 with
  | nil => cases g2; rfl
  | tag a b _ ih =>
    cases g2 with
    | tag a' b' c' => rw [trimmed_unique a, trimmed_unique a', ih c']
    | other a' b' c' => rw [trimmed_unique a] at b; rw [trimmed_unique a'] at b'; exact absurd b b'
  | other a b _ ih =>
    cases g2 with
    | tag a' b' c' => rw [trimmed_unique a] at b; rw [trimmed_unique a'] at b'; exact absurd b' b
    | other a' b' c' => exact ih c'

/-- **C60**, `quote_etag`: an entity tag is returned as it is, anything else in quotes; on text without
quotes inside the result is an entity tag and quoting it again changes nothing. -/
theorem C60_quote (s : Bytes) :
    (ETag s → quoteEtag s = s) ∧ (¬ ETag s → quoteEtag s = [34] ++ s ++ [34]) ∧
    (34 ∉ s ∨ ETag s → ETag (quoteEtag s) ∧ quoteEtag (quoteEtag s) = quoteEtag s) := by
  have h1 : ETag s → quoteEtag s = s := fun h => by
    unfold quoteEtag; rw [if_pos ((etagMatch_iff s).2 h)]
  have h2 : ¬ ETag s → quoteEtag s = [34] ++ s ++ [34] := fun h => by
    unfold quoteEtag; rw [if_neg (fun g => h ((etagMatch_iff s).1 g))]
  refine ⟨h1, h2, fun h => ?_⟩
  have ht : ETag (quoteEtag s) := by
    by_cases he : ETag s
    · rw [h1 he]; exact he
    · rw [h2 he]
      exact ⟨[], s, .inl rfl, h.resolve_right he, by simp⟩
  refine ⟨ht, ?_⟩
  generalize quoteEtag s = q at ht
  unfold quoteEtag
  rw [if_pos ((etagMatch_iff q).2 ht)]

/-- With quotes inside, quoting is not idempotent. -/
theorem C60_inner_quotes : quoteEtag b!"a\"b" = b!"\"a\"b\"" ∧
    quoteEtag (quoteEtag b!"a\"b") = b!"\"\"a\"b\"\"" := by decide +kernel

example : parseEtags b!" \"a\" , W/\"b\",c, \"d\"x, \"\"" = [b!"\"a\"", b!"W/\"b\"", b!"\"\""] ∧
    parseEtags b!" * " = [b!"*"] := by decide +kernel

end Verif
