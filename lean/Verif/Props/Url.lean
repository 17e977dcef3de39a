import Verif.Proofs.Url
/-!
# C48, C49, C50, C57: URL splitting and redirect checks
-/

namespace Verif
open Spec

/-- **C48** `_urlparse` partitions the URL: the components with their delimiters are the URL
(the scheme up to case), with the stated characters absent from each component; a scheme, a
host part and parameters are recognised whenever they are there. -/
theorem C48_partition (up : List UStr) (url : UStr) (p : UrlParse) (h : urlParse up url = .ok p) :
    UrlParts up url p := by
  unfold urlParse at h
  cases hs : urlSplit url with
  | error e => rw [hs] at h; simp at h
  | ok s =>
    rw [hs] at h
    obtain ⟨S, N, Q, F, e, hS, hN, hQ, hF, hN0, hhas, hnc, hpc, hqc⟩ := urlSplit_spec hs
    by_cases hp : s.scheme ∈ up ∧ 59 ∈ s.path
    · simp only [if_pos hp] at h
      obtain ⟨⟨P, eP, hP⟩, h47, hpar⟩ := splitParams_spec s.path
      simp only [Except.ok.injEq] at h
      subst h
      have m1 : ∀ c, c ∈ (splitParams s.path).1 → c ∈ s.path := fun c hc => by
        rw [eP]; exact List.mem_append_left _ hc
      have m2 : ∀ c, c ∈ (splitParams s.path).2 → c ∈ s.path := fun c hc => by
        rw [eP]
        rcases hP with hP | ⟨_, hP⟩
        · rw [hP]; simp [hc]
        · rw [hP] at hc; simp at hc
      refine ⟨⟨S, N, P, Q, F, ?_, hS, hN, hP, hQ, hF, ?_⟩, hhas, hnc, fun c hc => hpc c (m1 c hc), ?_,
        hqc, fun _ => hpar, fun hc => absurd hp.1 hc⟩
      · dsimp only
        rw [e]
        conv_lhs => rw [eP]
        simp
      · intro hn
        have := hN0 hn
        rw [eP] at this
        exact this
      · intro c hc
        exact ⟨fun e => h47 (e ▸ hc), hpc c (m2 c hc)⟩
    · simp only [if_neg hp, Except.ok.injEq] at h
      subst h
      refine ⟨⟨S, N, [], Q, F, by simpa using e, hS, hN, .inr ⟨rfl, rfl⟩, hQ, hF, by simpa using hN0⟩,
        hhas, hnc, hpc, by simp, hqc, ?_, fun _ => rfl⟩
      intro hu l r e2
      exact absurd ⟨hu, by dsimp only at e2; rw [e2]; simp⟩ hp

/-- **C48** `_urlparse` fails only with `ValueError`, exactly for a host part with unbalanced
brackets. -/
theorem C48_error (up : List UStr) (url : UStr) (e : Exc) :
    urlParse up url = .error e ↔ e = .valueError ∧ ¬ BracketsOk url := by
  have key : (urlSplit url = .error .valueError ∧ ¬ BracketsOk url) ∨
      ((∃ s, urlSplit url = .ok s) ∧ BracketsOk url) := by
    rcases url_cases url with ⟨t, r, ht, rfl⟩ | ⟨t, r, ht, hn, rfl⟩ | ⟨r, rfl⟩ | ⟨h1, h2⟩
    · rw [urlSplit_abs ht]
      by_cases hb : badBrackets (hostOf r) = true
      · exact .inl ⟨if_pos hb, fun h => badBrackets_iff.1 hb (h.absolute t r ht rfl)⟩
      · refine .inr ⟨⟨_, if_neg hb⟩, ⟨fun r' e => ?_, fun t' r' ht' e => ?_⟩⟩
        · exact absurd ⟨t, _, ht, e.symm⟩ hasScheme_not_slash
        · obtain ⟨_, h⟩ := scheme_unique ht ht' e
          simp at h; subst h
          exact not_not.1 (fun hc => hb (badBrackets_iff.2 hc))
    · rw [urlSplit_opaque ht hn]
      refine .inr ⟨⟨_, rfl⟩, ⟨fun r' e => ?_, fun t' r' ht' e => ?_⟩⟩
      · exact absurd ⟨t, _, ht, e.symm⟩ hasScheme_not_slash
      · obtain ⟨_, h⟩ := scheme_unique ht ht' e
        exact absurd ⟨r', h⟩ hn
    · rw [urlSplit_rel]
      by_cases hb : badBrackets (hostOf r) = true
      · exact .inl ⟨if_pos hb, fun h => badBrackets_iff.1 hb (h.relative r rfl)⟩
      · refine .inr ⟨⟨_, if_neg hb⟩, ⟨fun r' e => ?_, fun t' r' ht' e => ?_⟩⟩
        · simp at e; subst e
          exact not_not.1 (fun hc => hb (badBrackets_iff.2 hc))
        · exact absurd ⟨t', _, ht', e⟩ hasScheme_not_slash
    · rw [urlSplit_plain h1 h2]
      exact .inr ⟨⟨_, rfl⟩, ⟨fun r' e => absurd ⟨r', e⟩ h2, fun t' r' ht' e => absurd ⟨t', _, ht', e⟩ h1⟩⟩
  rcases key with ⟨h1, h2⟩ | ⟨⟨s, h1⟩, h2⟩
  · rw [(urlParse_head (up := up)).1 _ h1]
    simp only [Except.error.injEq, h2, not_false_eq_true, and_true]
    exact eq_comm
  · obtain ⟨p, hp, _⟩ := (urlParse_head (up := up)).2 s h1
    rw [hp]
    simp [h2]

example : (urlParse [Py.toU b!"http"] (Py.toU b!"HTTP://a.b:80/x;q/y;z=1?k=v?w#f?#g")).toOption =
    some { scheme := Py.toU b!"http", netloc := Py.toU b!"a.b:80", path := Py.toU b!"/x;q/y",
           params := Py.toU b!"z=1", query := Py.toU b!"k=v?w", fragment := Py.toU b!"f?#g" } := by
  decide +kernel

example : ¬ BracketsOk (Py.toU b!"http://[::1/") := by
  intro h
  have := h.absolute (Py.toU b!"http") (Py.toU b!"[::1/") ⟨by decide, by decide⟩ (by decide)
  revert this; decide

theorem okSchemes_eq (https : Bool) :
    (if https then [Py.toU b!"https"] else [Py.toU b!"http", Py.toU b!"https"]) = okSchemes https := by
  cases https <;> rfl

/-- One check of `is_safe_url`, for `unicode` text: exactly the safe targets with balanced
brackets pass. -/
theorem isSafeUrl1_iff (D : UData) (up : List UStr) (s : UStr) (h : Hosts) (https : Bool) :
    isSafeUrl1 D up (.u s) h https = .ok true ↔
      s ≠ [] ∧ BracketsOk s ∧ SafeTarget D (fun n => h.has n = true) https s := by
  unfold isSafeUrl1
  dsimp only
  by_cases h3 : Py.startsWith [47, 47, 47] s = true
  · rw [if_pos h3]
    simp only [Except.ok.injEq, Bool.false_eq_true, false_iff]
    rintro ⟨_, _, hs⟩
    exact hs.three (List.isPrefixOf_iff_prefix.1 h3)
  rw [if_neg h3]
  have h3' : ¬ [47, 47, 47] <+: s := fun e => h3 (List.isPrefixOf_iff_prefix.2 e)
  cases hp : urlParse up s with
  | error e =>
    obtain ⟨rfl, hb⟩ := (C48_error up s e).1 hp
    simp [hb]
  | ok i =>
    have hb : BracketsOk s := by
      by_contra hc
      rw [(C48_error up s .valueError).2 ⟨rfl, hc⟩] at hp
      simp at hp
    dsimp only
    cases s with
    | nil =>
      split <;> simp
    | cons c t =>
      have hctl : (∀ c' t', c :: t = c' :: t' → D.isControl c' = false) ↔ D.isControl c = false :=
        ⟨fun hh => hh c t rfl, fun hh c' t' e => by simp at e; rw [← e.1]; exact hh⟩
      -- the two components
      have hcomp : ∃ sp, urlSplit (c :: t) = .ok sp ∧ i.scheme = sp.scheme ∧ i.netloc = sp.netloc := by
        cases hs : urlSplit (c :: t) with
        | error e => rw [(urlParse_head (up := up)).1 _ hs] at hp; simp at hp
        | ok sp =>
          obtain ⟨p', hp', h1, h2⟩ := (urlParse_head (up := up)).2 sp hs
          rw [hp] at hp'
          simp at hp'; subst hp'
          exact ⟨sp, rfl, h1, h2⟩
      obtain ⟨sp, hsp, h1, h2⟩ := hcomp
      -- the answer in terms of the components
      have hans : ((if i.netloc = [] ∧ i.scheme ≠ [] then .ok false
          else if D.isControl c = true then .ok false
          else .ok ((decide (i.netloc = []) || h.has i.netloc) &&
            (decide ((if i.scheme = [] ∧ i.netloc ≠ [] then Py.toU b!"http" else i.scheme) = []) ||
              decide ((if i.scheme = [] ∧ i.netloc ≠ [] then Py.toU b!"http" else i.scheme) ∈
                (if https then [Py.toU b!"https"] else [Py.toU b!"http", Py.toU b!"https"])))) :
            Except Exc Bool) = .ok true) ↔
          D.isControl c = false ∧ ((i.scheme = [] ∧ i.netloc = []) ∨
            (i.scheme = [] ∧ i.netloc ≠ [] ∧ h.has i.netloc = true ∧ https = false) ∨
            (i.scheme ≠ [] ∧ i.netloc ≠ [] ∧ h.has i.netloc = true ∧ i.scheme ∈ okSchemes https)) := by
        rw [okSchemes_eq]
        cases hc : D.isControl c
        · by_cases e1 : i.scheme = [] <;> by_cases e2 : i.netloc = []
          · simp [e1, e2]
          · have : (Py.toU b!"http" ∈ okSchemes https) ↔ https = false := by cases https <;> decide
            have n : Py.toU b!"http" ≠ [] := by decide
            simp [e1, e2, this, n]
          · simp [e1, e2]
          · simp [e1, e2]
        · by_cases e1 : i.scheme = [] <;> by_cases e2 : i.netloc = [] <;> simp [e1, e2]
      refine Iff.trans hans ?_
      have hst : ∀ {A B : Prop}, (SafeTarget D (fun n => h.has n = true) https (c :: t) ↔
          D.isControl c = false ∧ A) → (B ↔ A) →
          (D.isControl c = false ∧ B ↔ (c :: t ≠ [] ∧ BracketsOk (c :: t) ∧
            SafeTarget D (fun n => h.has n = true) https (c :: t))) := by
        intro A B hA hB; simp [hA, hB, hb]
      rw [h1, h2]
      rcases url_cases (c :: t) with ⟨t', r, ht, e⟩ | ⟨t', r, ht, hn, e⟩ | ⟨r, e⟩ | ⟨n1, n2⟩
      · -- scheme and `//`
        rw [e, urlSplit_abs ht] at hsp
        split at hsp
        · simp at hsp
        simp only [Except.ok.injEq] at hsp
        subst hsp
        refine hst (A := t'.map lowerLetter ∈ okSchemes https ∧ hostOf r ≠ [] ∧ h.has (hostOf r) = true)
          ⟨fun k => ⟨hctl.1 k.control, ?_⟩, fun k => ⟨h3', hctl.2 k.1, fun r' e' => ?_, fun t2 r2 ht2 e' => ?_⟩⟩ ?_
        · obtain ⟨a, r', er, hr⟩ := k.absolute t' _ ht e
          simp at er; subst er
          exact ⟨a, hr⟩
        · rw [e] at e'
          exact absurd ⟨t', _, ht, e'.symm⟩ hasScheme_not_slash
        · obtain ⟨rfl, rfl⟩ := scheme_unique ht ht2 (e.symm.trans e')
          exact ⟨k.2.1, r, rfl, k.2.2⟩
        · have : t'.map lowerLetter ≠ [] := by simp [ht.1]
          simp only [tailSplit, this, false_and, false_or, ne_eq, not_false_eq_true, true_and]
          tauto
      · -- scheme without `//`
        rw [e, urlSplit_opaque ht hn] at hsp
        simp only [Except.ok.injEq] at hsp
        subst hsp
        refine hst (A := False) ⟨fun k => ?_, fun k => k.2.elim⟩ ?_
        · obtain ⟨a, r', er, hr⟩ := k.absolute t' _ ht e
          exact absurd ⟨r', er⟩ hn
        · have : t'.map lowerLetter ≠ [] := by simp [ht.1]
          simp [tailSplit, ht.1]
      · -- `//` only
        rw [e, urlSplit_rel] at hsp
        split at hsp
        · simp at hsp
        simp only [Except.ok.injEq] at hsp
        subst hsp
        refine hst (A := hostOf r = [] ∨ (h.has (hostOf r) = true ∧ https = false))
          ⟨fun k => ⟨hctl.1 k.control, k.relative r e⟩,
           fun k => ⟨h3', hctl.2 k.1, fun r' e' => ?_, fun t2 r2 ht2 e' => ?_⟩⟩ ?_
        · rw [e] at e'; simp at e'; subst e'; exact k.2
        · rw [e] at e'
          exact absurd ⟨t2, _, ht2, e'⟩ hasScheme_not_slash
        · simp only [tailSplit]
          by_cases hh : hostOf r = [] <;> simp [hh]
      · -- neither
        rw [urlSplit_plain n1 n2] at hsp
        simp only [Except.ok.injEq] at hsp
        subst hsp
        refine hst (A := True)
          ⟨fun k => ⟨hctl.1 k.control, trivial⟩,
           fun k => ⟨h3', hctl.2 k.1, fun r' e' => absurd ⟨r', e'⟩ n2,
             fun t2 r2 ht2 e' => absurd ⟨t2, r2, ht2, e'⟩ n1⟩⟩ ?_
        simp [tailSplit]

/-- A native `str` never passes: `unicodedata.category` raises `TypeError` for it. -/
theorem isSafeUrl1_str (D : UData) (up : List UStr) (s : Bytes) (h : Hosts) (https : Bool) :
    isSafeUrl1 D up (.b s) h https ≠ .ok true := by
  unfold isSafeUrl1
  dsimp only
  split
  · simp
  · split
    · simp
    · simp
    · simp
    · split <;> simp

/-- **C49** `is_safe_url` answers True exactly when the stripped URL is a non-empty `unicode`
which, as given and with backslashes turned into slashes, is a safe redirect target (and has
balanced brackets in its host part). -/
theorem C49_iff (D : UData) (up : List UStr) (url : Option PyStr) (h : Hosts) (https : Bool) :
    isSafeUrl D up url h https = .ok true ↔
      ∃ s, (∃ u, url = some (.u u) ∧ s = Py.stripBy D.isSpace u) ∧ s ≠ [] ∧
        (BracketsOk s ∧ SafeTarget D (fun n => h.has n = true) https s) ∧
        (BracketsOk (s.map (fun c => if c = 92 then 47 else c)) ∧
          SafeTarget D (fun n => h.has n = true) https (s.map (fun c => if c = 92 then 47 else c))) := by
  unfold isSafeUrl
  cases url with
  | none => simp
  | some url =>
    cases url with
    | b s =>
      simp only [UData.strip, reduceCtorEq, Option.some.injEq, false_and, exists_false, iff_false]
      unfold isSafeUrlStripped
      split
      · simp
      · split
        · rename_i h1; exact absurd h1 (isSafeUrl1_str _ _ _ _ _)
        · exact isSafeUrl1_str _ _ _ _ _
    | u u =>
      simp only [UData.strip]
      obtain ⟨s, hs⟩ : ∃ s, s = Py.stripBy D.isSpace u := ⟨_, rfl⟩
      rw [← hs]
      unfold isSafeUrlStripped
      by_cases he : s = []
      · subst he
        rw [if_pos (by decide)]
        simp only [Except.ok.injEq, Bool.false_eq_true, false_iff]
        rintro ⟨s, ⟨u', e, e2⟩, hn, _⟩
        simp at e; subst e; rw [← hs] at e2; exact hn e2
      · rw [if_neg (by simpa [PyStr.isEmpty] using he)]
        simp only [unbackslash, Py.replaceChar]
        have hR : (∃ s', (∃ u', some (PyStr.u u) = some (.u u') ∧ s' = Py.stripBy D.isSpace u') ∧ s' ≠ [] ∧
            (BracketsOk s' ∧ SafeTarget D (fun n => h.has n = true) https s') ∧
            (BracketsOk (s'.map (fun c => if c = 92 then 47 else c)) ∧
              SafeTarget D (fun n => h.has n = true) https (s'.map (fun c => if c = 92 then 47 else c)))) ↔
            ((BracketsOk s ∧ SafeTarget D (fun n => h.has n = true) https s) ∧
            (BracketsOk (s.map (fun c => if c = 92 then 47 else c)) ∧
              SafeTarget D (fun n => h.has n = true) https (s.map (fun c => if c = 92 then 47 else c)))) := by
          constructor
          · rintro ⟨s', ⟨u', e, e2⟩, _, k⟩
            simp at e; subst e; rw [← hs] at e2; subst e2; exact k
          · intro k; exact ⟨s, ⟨u, rfl, hs⟩, he, k⟩
        rw [hR]
        have i1 := isSafeUrl1_iff D up s h https
        have i2 := isSafeUrl1_iff D up (s.map (fun c => if c = 92 then 47 else c)) h https
        split
        · rename_i h1
          rw [i2]
          have := i1.1 h1
          simp [he, this.2]
        · rename_i hne
          constructor
          · intro h1; exact absurd h1 hne
          · intro k; exact absurd (i1.2 ⟨he, k.1⟩) hne

/-- **C49** soundness for the documented kinds of host collections: `None`, one native `str`,
or a collection. -/
theorem C49_sound (D : UData) (up : List UStr) (url : Option PyStr) (h : Hosts)
    (hk : ∀ s, h ≠ .uni s) (https : Bool) (ht : isSafeUrl D up url h https = .ok true) :
    ∃ s, (∃ u, url = some (.u u) ∧ s = Py.stripBy D.isSpace u) ∧
      SafeTarget D (allowedBy h) https s ∧
      SafeTarget D (allowedBy h) https (s.map (fun c => if c = 92 then 47 else c)) := by
  obtain ⟨s, hu, _, ⟨_, h1⟩, ⟨_, h2⟩⟩ := (C49_iff D up url h https).1 ht
  have : (fun n => h.has n = true) = allowedBy h := by
    funext n
    cases h with
    | none => simp [Hosts.has, allowedBy]
    | str s => simp [Hosts.has, allowedBy]
    | coll hs => simp [Hosts.has, allowedBy]
    | uni s => exact absurd rfl (hk s)
  rw [this] at h1 h2
  exact ⟨s, hu, h1, h2⟩

/-- A plain ASCII view of the Unicode data base, for the examples. -/
def asciiData : UData := ⟨fun c => decide (9 ≤ c ∧ c ≤ 13 ∨ c = 32), fun c => decide (c < 32 ∨ c = 127)⟩

example : (isSafeUrl asciiData [] (some (.u (Py.toU b!" https://a.b/x?y "))) (.coll [Py.toU b!"a.b"]) true).toOption
    = some true := by decide +kernel
example : (isSafeUrl asciiData [] (some (.u (Py.toU b!"/\\evil.com"))) (.coll [Py.toU b!"a.b"]) false).toOption
    = some false := by decide +kernel

/-- **C49** outside the documented kinds: when the allowed host is given as a `unicode` (which in
Python 2 is not an instance of `str`), `in` tests for a substring, so other hosts pass. -/
theorem C49_unicode_refuted :
    ∃ D up url h https, isSafeUrl D up (some (.u url)) h https = .ok true ∧
      h = .uni (Py.toU b!"ab.example.com") ∧ url = Py.toU b!"http://example.co/" := by
  refine ⟨asciiData, [], _, _, false, ?_, rfl, rfl⟩
  have : (isSafeUrl asciiData [] (some (.u (Py.toU b!"http://example.co/")))
      (.uni (Py.toU b!"ab.example.com")) false).toOption = some true := by decide +kernel
  revert this
  cases isSafeUrl asciiData [] (some (.u (Py.toU b!"http://example.co/")))
      (.uni (Py.toU b!"ab.example.com")) false <;> simp [Except.toOption]

/-- **C50** `is_same_domain`: exact match with the lower-cased pattern, or a wildcard match for
a pattern starting with a dot; the empty pattern matches nothing. -/
theorem C50_iff (host pattern : Bytes) :
    isSameDomain host pattern = true ↔
      pattern ≠ [] ∧ (host = Py.lower pattern ∨
        ∃ d, Py.lower pattern = 46 :: d ∧ (host = d ∨ ∃ sub, host = sub ++ 46 :: d)) := by
  unfold isSameDomain
  cases pattern with
  | nil => simp [Py.lower]
  | cons p ps =>
    simp only [Py.lower, List.map_cons, ne_eq, reduceCtorEq, not_false_eq_true, true_and,
      Bool.or_eq_true, Bool.and_eq_true, decide_eq_true_eq, Py.endsWith,
      List.isSuffixOf_iff_suffix, List.cons.injEq]
    constructor
    · rintro (⟨h1, ⟨sub, h2⟩ | h2⟩ | h)
      · exact .inr ⟨_, ⟨h1, rfl⟩, .inr ⟨sub, by rw [← h2, h1]⟩⟩
      · exact .inr ⟨_, ⟨h1, rfl⟩, .inl h2⟩
      · exact .inl h.symm
    · rintro (h | ⟨d, ⟨h1, rfl⟩, h | ⟨sub, h⟩⟩)
      · exact .inr h.symm
      · exact .inl ⟨h1, .inr h⟩
      · exact .inl ⟨h1, .inl ⟨sub, by rw [h, h1]⟩⟩

example : isSameDomain b!"foo.example.com" b!".Example.com" = true ∧
    isSameDomain b!"fooexample.com" b!".example.com" = false ∧
    isSameDomain b!"example.com" b!".example.com" = true := by decide

/-- **C57** the result never starts with `//`, and differs from the input exactly when the input
does. -/
theorem C57_no_leading_slashes (url : Bytes) :
    ¬ b!"//" <+: escapeLeadingSlashes url ∧
    (escapeLeadingSlashes url ≠ url ↔ b!"//" <+: url) ∧
    (∀ r, url = b!"//" ++ r → escapeLeadingSlashes url = b!"/%2F" ++ r) := by
  unfold escapeLeadingSlashes
  by_cases h : Py.startsWith b!"//" url = true
  · rw [if_pos h]
    have h' : b!"//" <+: url := List.isPrefixOf_iff_prefix.1 h
    refine ⟨?_, ⟨fun _ => h', fun _ e => ?_⟩, ?_⟩
    · rintro ⟨t, e⟩; simp at e
    · obtain ⟨t, rfl⟩ := h'
      simp at e
    · rintro r rfl; simp
  · rw [if_neg h]
    have h' : ¬ b!"//" <+: url := fun e => h (List.isPrefixOf_iff_prefix.2 e)
    refine ⟨h', by simp [h'], ?_⟩
    rintro r rfl; exact absurd (List.prefix_append _ _) h'

example : escapeLeadingSlashes b!"//evil.com" = b!"/%2Fevil.com" := by decide

end Verif
