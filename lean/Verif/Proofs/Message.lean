import Verif.Spec.Message
import Verif.Proofs.Url
import Verif.Proofs.Header2
import Verif.Proofs.RequestHead
import Verif.Proofs.Request
import Verif.Props.Request
import Verif.Props.RequestHead
import Verif.Props.Entry
/-! How the header parser reads a written request. -/

namespace Verif
open Spec

/-! ### Media types -/

theorem joinSemi_snoc : ∀ (raws : List Bytes) (r : Bytes), raws ≠ [] →
    joinSemi (raws ++ [r]) = joinSemi raws ++ b!";" ++ r
  | [], _, h => absurd rfl h
  | [a], r, _ => by simp [joinSemi]
  | a :: b :: l, r, _ => by
    have := joinSemi_snoc (b :: l) r (by simp)
    simp only [List.cons_append] at this ⊢
    simp only [joinSemi, this]
    simp

instance (c : UInt8) : Decidable (Visible c) := inferInstanceAs (Decidable (33 ≤ c ∧ c ≤ 126))

theorem visible_not_space {c : UInt8} (h : Visible c) : Py.isSpace c = false := by
  have := forall_u8 (fun c => !(decide (33 ≤ c ∧ c ≤ 126)) || !Py.isSpace c) (by decide +kernel) c
  simpa [show 33 ≤ c ∧ c ≤ 126 from h] using this

theorem visible_ascii {c : UInt8} (h : Visible c) : c < 128 := by
  have h2 := UInt8.le_iff_toNat_le.1 h.2
  rw [UInt8.lt_iff_toNat_lt]
  have : (126 : UInt8).toNat = 126 := rfl
  have : (128 : UInt8).toNat = 128 := rfl
  omega

theorem visible_paramName {n : Bytes} (h : ∀ c ∈ n, Visible c ∧ c ∉ b!"=;\"*'") : ParamName n := by
  have hs : ∀ c ∈ n, c ≠ 32 ∧ ¬ (9 ≤ c ∧ c ≤ 13) := by
    intro c hc
    have := forall_u8 (fun c => !(decide (33 ≤ c ∧ c ≤ 126)) || decide (c ≠ 32 ∧ ¬ (9 ≤ c ∧ c ≤ 13)))
      (by decide +kernel) c
    simp only [show 33 ≤ c ∧ c ≤ 126 from (h c hc).1, decide_true, Bool.not_true, Bool.false_or,
      and_self, decide_eq_true_eq] at this
    exact this
  have hn : ∀ c, c ∈ b!"=;\"*'" → c ∉ n := fun c hc hm => (h c hm).2 hc
  refine ⟨fun c hc => visible_ascii (h c hc).1, hn 61 (by decide), hn 59 (by decide), hn 34 (by decide),
    fun c hc => hs c (List.mem_of_head? hc), fun c hc => ?_⟩
  have hm := List.mem_of_getLast? hc
  refine ⟨(hs c hm).1, (hs c hm).2, ?_⟩
  rintro rfl
  exact hn 42 (by decide) hm

theorem escapeQuoted_id {v : Bytes} (h : ∀ c ∈ v, c ∉ b!";\"\\") : escapeQuoted v = v := by
  induction v with
  | nil => rfl
  | cons c v ih =>
    have := h c (by simp)
    rw [escapeQuoted, if_neg (by
      rintro (rfl | rfl)
      · exact this (by decide)
      · exact this (by decide)), ih (fun x hx => h x (by simp [hx]))]

theorem parseParam_token (C : Codecs) {n v : Bytes} (hn : ∀ c ∈ n, Visible c ∧ c ∉ b!"=;\"*'")
    (hv : ∀ c ∈ v, c ∉ b!";\"\\") (hvis : ∀ c ∈ v, Visible c) (hne : n ≠ []) :
    parseParam C (Py.strip (b!" " ++ (n ++ b!"=" ++ v))) = .ok (some (Py.lower n, .b v)) := by
  have hp := visible_paramName hn
  have e : Py.strip (b!" " ++ (n ++ b!"=" ++ v)) = n ++ 61 :: v := by
    have := strip_pad (l := b!" ") (v := n ++ 61 :: v) (r := []) (by decide) (by
      intro c hc
      have hm : c ∈ n ∨ c = 61 ∨ c ∈ v := by
        have : c ∈ n ++ 61 :: v := by
          rcases hc with h | h
          · exact List.mem_of_head? h
          · exact List.mem_of_getLast? h
        simpa using this
      rcases hm with h | rfl | h
      · exact visible_not_space (hn c h).1
      · rfl
      · exact visible_not_space (hvis c h))
    simpa using this
  rw [e]
  have hs : Py.strip n = n :=
    stripBy_id (fun c hc => visible_not_space (hn c (List.mem_of_head? hc)).1)
      (fun c hc => visible_not_space (hn c (List.mem_of_getLast? hc)).1)
  have hsv : Py.strip v = v :=
    stripBy_id (fun c hc => visible_not_space (hvis c (List.mem_of_head? hc)))
      (fun c hc => visible_not_space (hvis c (List.mem_of_getLast? hc)))
  have ha : Py.isAscii (Py.lower n) = true := by
    rw [lower_ascii]; unfold Py.isAscii; simp; exact hp.ascii
  have he : Py.endsWith b!"*" (Py.lower n) = false := by
    unfold Py.endsWith
    by_contra hc
    simp only [Bool.not_eq_false] at hc
    rw [List.isSuffixOf_iff_suffix] at hc
    obtain ⟨t, ht⟩ := hc
    have h1 : (Py.lower n).getLast? = some 42 := by rw [← ht]; simp
    unfold Py.lower at h1
    rw [List.getLast?_map] at h1
    obtain ⟨c, hc1, hc2⟩ := Option.map_eq_some_iff.1 h1
    have := lowerByte_ne (by decide) hc2
    exact (hp.last c hc1).2.2 this
  have hu : unquoteValue 34 92 v = v := by
    unfold unquoteValue
    rw [if_neg]
    rintro ⟨_, h, _⟩
    exact hv 34 (List.mem_of_head? h) (by decide)
  unfold parseParam
  rw [splitFirst_append hp.noEq]
  simp only [hs, ha, he, hsv, hu, Bool.false_and, if_false, Bool.false_eq_true, Bool.true_eq_false]

theorem parseParam_text (C : Codecs) {n v t : Bytes} (hn : n ≠ [] ∧ ∀ c ∈ n, Visible c ∧ c ∉ b!"=;\"*'")
    (hv : ∀ c ∈ v, c ∉ b!";\"\\") (h : ParamText n v t) :
    parseParam C (Py.strip (b!" " ++ t)) = .ok (some (Py.lower n, .b v)) := by
  rcases h with ⟨h1, rfl⟩ | rfl
  · exact parseParam_token C hn.2 hv h1 hn.1
  · have := parseParam_raw C (p := (n, v)) (visible_paramName hn.2)
    rw [← this]
    simp [paramRaw, escapeQuoted_id hv]

theorem parseParams_snoc (C : Codecs) : ∀ (ps : List Bytes) (q n : Bytes) (v : PyStr) (d d' : Dict Bytes PyStr),
    parseParams C ps d = .ok d' → parseParam C q = .ok (some (n, v)) →
    parseParams C (ps ++ [q]) d = .ok (d'.set n v)
  | [], q, n, v, d, d', h, hq => by
    simp only [parseParams, Except.ok.injEq] at h
    subst h
    simp [parseParams, hq]
  | p :: ps, q, n, v, d, d', h, hq => by
    simp only [parseParams, List.cons_append] at h ⊢
    split at h
    · cases h
    · exact parseParams_snoc C ps q n v _ _ h hq
    · exact parseParams_snoc C ps q n v _ _ h hq

theorem media_split {type s : Bytes} {ps : List (Bytes × Bytes)} (ht : 34 ∉ type ∧ 59 ∉ type)
    (C : Codecs) (h : MediaText type ps s) :
    ∃ raws d, SplitSemis s (type :: raws) ∧ (∀ r ∈ raws, quotes r % 2 = 0) ∧
      parseParams C (raws.map Py.strip) [] = .ok d ∧
      d = (ps.map (fun p => (Py.lower p.1, p.2))).foldl (fun (d : Dict Bytes PyStr) p => d.set p.1 (.b p.2)) [] := by
  induction h with
  | nil =>
    refine ⟨[], [], ⟨by simp, rfl, ?_, by simp⟩, by simp, rfl, rfl⟩
    intro r hr a b hab
    simp at hr
    subst hr
    exact absurd (by rw [hab]; simp) ht.2
  | @snoc ps s n v t _ hn hv hp ih =>
    obtain ⟨raws, d, hS, hq, h1, h2⟩ := ih
    have hquot : quotes (b!" " ++ t) % 2 = 0 := by
      have hn0 : quotes n = 0 := List.count_eq_zero.2 (fun hm => (hn.2 34 hm).2 (by decide))
      have hv0 : quotes v = 0 := List.count_eq_zero.2 (fun hm => hv 34 hm (by decide))
      unfold quotes at hn0 hv0 ⊢
      rcases hp with ⟨_, rfl⟩ | rfl
      · simp [List.count_append, hn0, hv0]
      · simp [List.count_append, hn0, hv0]
    have hsemi : (59 : UInt8) ∉ b!" " ++ t := by
      have hn0 : (59 : UInt8) ∉ n := fun hm => (hn.2 59 hm).2 (by decide)
      have hv0 : (59 : UInt8) ∉ v := fun hm => hv 59 hm (by decide)
      rcases hp with ⟨_, rfl⟩ | rfl <;> simp [hn0, hv0]
    refine ⟨raws ++ [b!" " ++ t], _, ⟨by simp, ?_, ?_, ?_⟩, ?_, ?_, rfl⟩
    · rw [← List.cons_append, joinSemi_snoc _ _ (by simp), ← hS.join]
      simp
    · intro r hr a b hab
      rw [← List.cons_append, List.mem_append] at hr
      rcases hr with hr | hr
      · exact hS.inner r hr a b hab
      · simp only [List.mem_singleton] at hr
        subst hr
        exact absurd (by rw [hab]; simp) hsemi
    · intro r hr
      rw [← List.cons_append, List.dropLast_concat] at hr
      rcases List.mem_cons.1 hr with rfl | hr
      · simp [quotes, List.count_eq_zero.2 ht.1]
      · exact hq r hr
    · intro r hr
      rcases List.mem_append.1 hr with hr | hr
      · exact hq r hr
      · simp only [List.mem_singleton] at hr
        subst hr; exact hquot
    · rw [List.map_append, List.map_singleton]
      rw [parseParams_snoc C _ _ _ _ _ _ h1 (parseParam_text C hn hv hp), h2]
      simp [List.foldl_append]

/-- A media type with its parameters is read as written. -/
theorem parseHeader_media (C : Codecs) {type s : Bytes} {ps : List (Bytes × Bytes)}
    (ht : 34 ∉ type ∧ 59 ∉ type ∧ ∀ c ∈ type, c < 128) (h : MediaText type ps s) :
    ∃ d, parseHeader C s = .ok (Py.lower (Py.strip type), d) ∧
      ∀ n, d.get? n = (param ps n).map PyStr.b := by
  obtain ⟨raws, d, hS, _, h1, h2⟩ := media_split ⟨ht.1, ht.2.1⟩ C h
  have ha : Py.isAscii (Py.lower (Py.strip type)) = true := by
    rw [lower_ascii]
    unfold Py.isAscii
    simp only [List.all_eq_true, decide_eq_true_eq]
    intro c hc
    exact ht.2.2 c (strip_subset _ c hc)
  refine ⟨d, ?_, fun n => ?_⟩
  · rw [parseHeader_of_split C hS, h1, if_neg (by simp [ha])]
  · rw [h2, foldl_set_get]
    simp [param, Dict.get?]


/-! ### The request line -/

theorem splitChar_two {a b c : Bytes} (ha : 32 ∉ a) (hb : 32 ∉ b) (hc : 32 ∉ c) :
    Py.splitChar 32 (a ++ b!" " ++ b ++ b!" " ++ c) = [a, b, c] := by
  have one : ∀ {x : Bytes}, 32 ∉ x → Py.splitChar 32 x = [x] := by
    intro x hx
    induction x with
    | nil => rfl
    | cons y t ih =>
      simp only [List.mem_cons, not_or] at hx
      simp [Py.splitChar, Ne.symm hx.1, ih hx.2]
  have two : ∀ {x r : Bytes}, 32 ∉ x → Py.splitChar 32 (x ++ 32 :: r) = x :: Py.splitChar 32 r := by
    intro x r hx
    induction x with
    | nil => simp [Py.splitChar]
    | cons y t ih =>
      simp only [List.mem_cons, not_or] at hx
      simp [Py.splitChar, Ne.symm hx.1, ih hx.2]
  have e : a ++ b!" " ++ b ++ b!" " ++ c = a ++ 32 :: (b ++ 32 :: c) := by simp
  rw [e, two ha, two hb, one hc]

theorem ofU_toU (s : Bytes) : ofU (Py.toU s) = s := toU_ofNat s

theorem cutAt_app {l r : UStr} {c : Nat} (h : c ∉ l) : cutAt c (l ++ c :: r) = (l, r) := by
  unfold cutAt; rw [Py.splitFirst_app h]

theorem cutAt_absent {l : UStr} {c : Nat} (h : c ∉ l) : cutAt c l = (l, []) := by
  unfold cutAt; rw [Py.splitFirst_eq_none.2 h]

/-- Path and query of a target. -/
theorem tailSplit_target {sc nl : UStr} {path query : Bytes} (hp : 35 ∉ path ∧ 63 ∉ path) (hq : 35 ∉ query) :
    tailSplit sc nl (Py.toU (path ++ (if query = [] then [] else b!"?" ++ query))) =
      { scheme := sc, netloc := nl, path := Py.toU path, query := Py.toU query, fragment := [] } := by
  have h35 : (35 : Nat) ∉ Py.toU (path ++ (if query = [] then [] else b!"?" ++ query)) := by
    rw [show (35 : Nat) = (35 : UInt8).toNat from rfl, mem_toU]
    split <;> simp [hp.1, hq]
  have h63 : (63 : Nat) ∉ Py.toU path := by
    rw [show (63 : Nat) = (63 : UInt8).toNat from rfl, mem_toU]; exact hp.2
  unfold tailSplit
  rw [cutAt_absent h35]
  by_cases h : query = []
  · subst h
    simp only [if_true, List.append_nil]
    rw [cutAt_absent h63]
    rfl
  · rw [if_neg h]
    have : Py.toU (path ++ (b!"?" ++ query)) = Py.toU path ++ 63 :: Py.toU query := by simp [Py.toU]
    simp only [this]
    rw [cutAt_app h63]

theorem schemeName_bytes {s : Bytes} (hne : s ≠ [])
    (h : ∀ c ∈ s, c ∈ b!"abcdefghijklmnopqrstuvwxyzABCDEFGHIJKLMNOPQRSTUVWXYZ0123456789+-.") :
    SchemeName (Py.toU s) ∧ ofU ((Py.toU s).map lowerLetter) = Py.lower s := by
  refine ⟨⟨by simpa [Py.toU] using hne, ?_⟩, ?_⟩
  · intro c hc
    obtain ⟨x, hx, rfl⟩ := List.mem_map.1 hc
    have := forall_u8 (fun c => !decide (c ∈ b!"abcdefghijklmnopqrstuvwxyzABCDEFGHIJKLMNOPQRSTUVWXYZ0123456789+-.")
      || decide (c.toNat ∈ schemeLetters.map UInt8.toNat)) (by decide +kernel) x
    simp only [h x hx, decide_true, Bool.not_true, Bool.false_or, decide_eq_true_eq] at this
    exact this
  · unfold ofU Py.toU Py.lower
    rw [List.map_map, List.map_map]
    refine List.map_congr_left fun x _ => ?_
    have := forall_u8 (fun c => decide (UInt8.ofNat (lowerLetter c.toNat) = Py.lowerByte c)) (by decide +kernel) x
    simpa using this

/-- The characters of a host and port in any case. -/
theorem hostForm_chars {host d p : Bytes} (h : HostForm (Py.lower host) d p) :
    (∀ c ∈ host, Visible c ∧ c ∉ b!"/?#") ∧ (91 ∈ host ↔ 93 ∈ host) ∧ host ≠ [] := by
  have key : ∀ c : UInt8, Py.lowerByte c ∈ b!"abcdefghijklmnopqrstuvwxyz0123456789.-:[]" →
      Visible c ∧ c ∉ b!"/?#" := by
    intro c hc
    have := forall_u8 (fun c => !decide (Py.lowerByte c ∈ b!"abcdefghijklmnopqrstuvwxyz0123456789.-:[]") ||
      decide ((33 ≤ c ∧ c ≤ 126) ∧ c ∉ b!"/?#")) (by decide +kernel) c
    simp only [hc, decide_true, Bool.not_true, Bool.false_or, decide_eq_true_eq] at this
    exact this
  have nb : ∀ c, nameByte c → c ∈ b!"abcdefghijklmnopqrstuvwxyz0123456789.-:[]" ∧ c ≠ 91 ∧ c ≠ 93 := by
    intro c hc
    have := forall_u8 (fun c => !decide (c ∈ b!"abcdefghijklmnopqrstuvwxyz0123456789.-") ||
      decide (c ∈ b!"abcdefghijklmnopqrstuvwxyz0123456789.-:[]" ∧ c ≠ 91 ∧ c ≠ 93)) (by decide +kernel) c
    have hc' : c ∈ b!"abcdefghijklmnopqrstuvwxyz0123456789.-" := hc
    simp only [hc', decide_true, Bool.not_true, Bool.false_or, decide_eq_true_eq] at this
    exact this
  have hx : ∀ c, hexByte c → nameByte c := by
    intro c hc
    have := forall_u8 (fun c => !decide (c ∈ b!"abcdef0123456789") ||
      decide (c ∈ b!"abcdefghijklmnopqrstuvwxyz0123456789.-")) (by decide +kernel) c
    have hc' : c ∈ b!"abcdef0123456789" := hc
    simp only [hc', decide_true, Bool.not_true, Bool.false_or, decide_eq_true_eq] at this
    exact this
  have hdg : ∀ c, digitByte c → nameByte c := by
    intro c hc
    have := forall_u8 (fun c => !decide (c ∈ b!"0123456789") ||
      decide (c ∈ b!"abcdefghijklmnopqrstuvwxyz0123456789.-")) (by decide +kernel) c
    have hc' : c ∈ b!"0123456789" := hc
    simp only [hc', decide_true, Bool.not_true, Bool.false_or, decide_eq_true_eq] at this
    exact this
  obtain ⟨hd, hp, ht⟩ := h
  have hdom : (∀ c ∈ d, c ∈ b!"abcdefghijklmnopqrstuvwxyz0123456789.-:[]") ∧ (91 ∈ d ↔ 93 ∈ d) ∧ d ≠ [] := by
    rcases hd with ⟨h1, h2⟩ | ⟨a, t, rfl, h2, h3, h4⟩
    · exact ⟨fun c hc => (nb c (h2 c hc)).1, ⟨fun h => absurd rfl (nb _ (h2 _ h)).2.1, fun h =>
        absurd rfl (nb _ (h2 _ h)).2.2⟩, h1⟩
    · refine ⟨?_, by simp, by simp⟩
      intro c hc
      simp only [List.mem_append, List.mem_singleton] at hc
      rcases hc with (((rfl | hc) | rfl) | hc) | rfl
      · decide
      · exact (nb c (hx c (h2 c hc))).1
      · decide
      · rcases h4 c hc with h | rfl | rfl
        · exact (nb c (hx c h)).1
        · decide
        · decide
      · decide
  have hall : (∀ c ∈ Py.lower host, c ∈ b!"abcdefghijklmnopqrstuvwxyz0123456789.-:[]") ∧
      (91 ∈ Py.lower host ↔ 93 ∈ Py.lower host) ∧ Py.lower host ≠ [] := by
    rcases ht with ⟨_, e⟩ | ⟨_, e⟩
    · rw [e]; exact hdom
    · rw [e]
      have n91 : (91 : UInt8) ∉ p := fun h => (nb _ (hdg _ (hp _ h))).2.1 rfl
      have n93 : (93 : UInt8) ∉ p := fun h => (nb _ (hdg _ (hp _ h))).2.2 rfl
      refine ⟨?_, ?_, by simp⟩
      · intro c hc
        simp only [List.mem_append, List.mem_singleton] at hc
        rcases hc with (hc | rfl) | hc
        · exact hdom.1 c hc
        · decide
        · exact (nb c (hdg c (hp c hc))).1
      · simp [n91, n93, hdom.2.1]
  have mem : ∀ x : UInt8, ¬ (97 ≤ x ∧ x ≤ 122) → (65 ≤ x → 90 < x) → (x ∈ Py.lower host ↔ x ∈ host) := by
    intro x h1 h2
    unfold Py.lower
    rw [List.mem_map]
    constructor
    · rintro ⟨c, hc, e⟩
      rw [← lowerByte_ne h1 e]; exact hc
    · intro hc
      refine ⟨x, hc, ?_⟩
      unfold Py.lowerByte
      rw [if_neg]
      rintro ⟨a, b⟩
      exact absurd b (UInt8.not_le.2 (h2 a))
  refine ⟨fun c hc => key c (hall.1 _ (List.mem_map.2 ⟨c, hc, rfl⟩)), ?_, ?_⟩
  · rw [← mem 91 (by decide) (by decide), ← mem 93 (by decide) (by decide)]; exact hall.2.1
  · rintro rfl; exact hall.2.2 rfl


theorem visible_ne {c : UInt8} (h : Visible c) : c ≠ 32 ∧ c ≠ 13 ∧ c ≠ 10 := by
  refine ⟨?_, ?_, ?_⟩ <;> · rintro rfl; exact absurd h.1 (by decide)

theorem schemeByte_visible {c : UInt8}
    (h : c ∈ b!"abcdefghijklmnopqrstuvwxyzABCDEFGHIJKLMNOPQRSTUVWXYZ0123456789+-.") : Visible c := by
  have := forall_u8 (fun c => !decide (c ∈ b!"abcdefghijklmnopqrstuvwxyzABCDEFGHIJKLMNOPQRSTUVWXYZ0123456789+-.")
    || decide (33 ≤ c ∧ c ≤ 126)) (by decide +kernel) c
  simp only [h, decide_true, Bool.not_true, Bool.false_or, decide_eq_true_eq] at this
  exact this

namespace Spec.Message
variable {m : Message}

/-- The target consists of visible characters. -/
theorem target_visible (h : m.Ok) (ha : m.scheme ≠ [] → ∀ c ∈ m.authority, Visible c) :
    ∀ c ∈ m.target, Visible c := by
  intro c hc
  unfold target at hc
  simp only [List.mem_append] at hc
  rcases hc with (hc | hc) | hc
  · split at hc
    · simp at hc
    · rename_i hs
      simp only [List.mem_append] at hc
      rcases hc with (hc | hc) | hc
      · exact schemeByte_visible (h.scheme c hc)
      · simp at hc
        rcases hc with rfl | rfl <;> decide
      · exact ha hs c hc
  · exact (h.path c hc).1
  · split at hc
    · simp at hc
    · simp only [List.mem_append, List.mem_singleton] at hc
      rcases hc with rfl | hc
      · decide
      · exact (h.query c hc).1

/-- The parsed request line. -/
def reqLine (m : Message) : ReqLine :=
  { method := m.method, scheme := Py.lower m.scheme, domain := if m.scheme = [] then [] else m.authority,
    path := m.path, params := [], query := m.query, fragment := [], proto := m.proto }

theorem parse_line (up : List UStr) (h : m.Ok)
    (ha : m.scheme ≠ [] → ∃ d p, HostForm (Py.lower m.authority) d p) :
    parseRequestLine up m.line = .ok m.reqLine := by
  have hav : m.scheme ≠ [] → ∀ c ∈ m.authority, Visible c := fun hs c hc => by
    obtain ⟨d, p, hf⟩ := ha hs
    exact ((hostForm_chars hf).1 c hc).1
  have ht := target_visible h hav
  have hsp : ∀ {s : Bytes}, (∀ c ∈ s, Visible c) → 32 ∉ s := fun hs hm => (visible_ne (hs _ hm)).1 rfl
  have hasc : Py.isAscii m.target = true := by
    unfold Py.isAscii
    simp only [List.all_eq_true, decide_eq_true_eq]
    exact fun c hc => visible_ascii (ht c hc)
  have hp : 35 ∉ m.path ∧ 63 ∉ m.path :=
    ⟨fun hm => (h.path _ hm).2 (by decide), fun hm => (h.path _ hm).2 (by decide)⟩
  have hq : 35 ∉ m.query := fun hm => (h.query _ hm).2 rfl
  have h59 : (59 : Nat) ∉ Py.toU m.path := by
    rw [show (59 : Nat) = (59 : UInt8).toNat from rfl, mem_toU]
    exact fun hm => (h.path _ hm).2 (by decide)
  obtain ⟨p0, hp0, hp1⟩ := h.slash
  have main : ∃ sc nl, urlSplit (Py.toU m.target) = .ok ⟨sc, nl, Py.toU m.path, Py.toU m.query, []⟩ ∧ ofU sc = Py.lower m.scheme ∧
        ofU nl = if m.scheme = [] then [] else m.authority := by
    by_cases hs : m.scheme = []
    · refine ⟨[], [], ?_, by rw [hs]; rfl, by simp [hs, ofU]⟩
      have e : Py.toU m.target = Py.toU (m.path ++ (if m.query = [] then [] else b!"?" ++ m.query)) := by
        simp [target, hs]
      rw [e, urlSplit_plain, tailSplit_target hp hq]
      · rw [hp0]
        exact hasScheme_not_slash
      · rintro ⟨r, hr⟩
        rw [hp0] at hr
        simp only [Py.toU, List.cons_append, List.map_cons, List.cons.injEq] at hr
        cases hh : p0 with
        | nil =>
          rw [hh] at hr
          by_cases hq : m.query = []
          · simp [hq] at hr
          · simp [hq] at hr
        | cons x xs =>
          rw [hh] at hr hp1
          simp at hr hp1
          exact hp1 (UInt8.toNat_inj.1 hr.1)
    · obtain ⟨d, p, hf⟩ := ha hs
      obtain ⟨c1, c2, c3⟩ := hostForm_chars hf
      obtain ⟨s1, s2⟩ := schemeName_bytes hs h.scheme
      refine ⟨_, Py.toU m.authority, ?_, s2, by rw [if_neg hs, ofU_toU]⟩
      have e : Py.toU m.target = Py.toU m.scheme ++ 58 :: 47 :: 47 ::
          (Py.toU m.authority ++ Py.toU (m.path ++ (if m.query = [] then [] else b!"?" ++ m.query))) := by
        simp [target, hs, Py.toU]
      rw [e, urlSplit_abs s1]
      have hne : ∀ x ∈ Py.toU m.authority, (!(x == 47 || x == 63 || x == 35)) = true := by
        intro x hx
        obtain ⟨c, hc, rfl⟩ := List.mem_map.1 hx
        have := (c1 c hc).2
        have key := forall_u8 (fun c => decide (c ∈ b!"/?#") || !(c.toNat == 47 || c.toNat == 63 || c.toNat == 35))
          (by decide +kernel) c
        simp only [this, decide_false, Bool.false_or] at key
        exact key
      have hcut : (Py.toU (m.path ++ (if m.query = [] then [] else b!"?" ++ m.query))) =
          47 :: Py.toU (p0 ++ (if m.query = [] then [] else b!"?" ++ m.query)) := by
        rw [hp0]; rfl
      have hh : hostOf (Py.toU m.authority ++ Py.toU (m.path ++ (if m.query = [] then [] else b!"?" ++ m.query)))
          = Py.toU m.authority := by
        unfold hostOf
        rw [hcut, List.takeWhile_append_of_pos hne]
        simp
      have hr : afterHost (Py.toU m.authority ++ Py.toU (m.path ++ (if m.query = [] then [] else b!"?" ++ m.query)))
          = Py.toU (m.path ++ (if m.query = [] then [] else b!"?" ++ m.query)) := by
        unfold afterHost
        rw [hcut, List.dropWhile_append_of_pos hne]
        simp
      rw [hh, hr, if_neg, tailSplit_target hp hq]
      rw [badBrackets_iff, not_not, show (91 : Nat) = (91 : UInt8).toNat from rfl,
        show (93 : Nat) = (93 : UInt8).toNat from rfl, mem_toU, mem_toU]
      exact c2
  obtain ⟨sc, nl, e1, e2, e3⟩ := main
  unfold parseRequestLine line
  rw [splitChar_two (fun hm => (h.method _ hm).1 rfl) (hsp ht) (fun hm => (h.proto _ hm).1 rfl)]
  simp only [urlParseStr, hasc, if_true, urlParse, e1]
  rw [if_neg (fun hh => h59 hh.2)]
  simp only [reqLine, ofU_toU, e2, e3]
  rfl


theorem line_cr (h : m.Ok) (ha : m.scheme ≠ [] → ∀ c ∈ m.authority, Visible c) : 13 ∉ m.line := by
  intro hc
  unfold line at hc
  simp only [List.mem_append, List.mem_singleton] at hc
  rcases hc with (((hc | hc) | hc) | hc) | hc
  · exact (h.method _ hc).2 rfl
  · exact absurd hc (by decide)
  · exact (visible_ne (target_visible h ha _ hc)).2.1 rfl
  · exact absurd hc (by decide)
  · exact (h.proto _ hc).2 rfl

theorem no_cr (h : m.Ok) (ha : m.scheme ≠ [] → ∀ c ∈ m.authority, Visible c) :
    ∀ l ∈ m.line :: m.lines, l ≠ [] ∧ 13 ∉ l := by
  intro l hl
  rcases List.mem_cons.1 hl with rfl | hl
  · refine ⟨by simp [line], fun hc => ?_⟩
    exact line_cr h ha hc
  · obtain ⟨p, hp, rfl⟩ := List.mem_map.1 hl
    refine ⟨by simp, fun hc => ?_⟩
    simp only [List.mem_append] at hc
    rcases hc with (hc | hc) | hc
    · exact (visible_ne (h.names p hp _ hc).1).2.1 rfl
    · exact absurd hc (by decide)
    · rcases (h.values p hp).1 _ hc with h | h | h
      · exact (visible_ne h).2.1 rfl
      · exact absurd h (by decide)
      · exact absurd h (by decide)

theorem empty_line_last : ∀ (ls : List Bytes), ls ≠ [] → (∀ l ∈ ls, l ≠ [] ∧ 13 ∉ l) → ∀ body a b : Bytes,
    ls.flatMap (· ++ b!"\r\n") ++ b!"\r\n" ++ body = a ++ b!"\r\n\r\n" ++ b →
    (ls.flatMap (· ++ b!"\r\n")).length ≤ a.length + 2
  | [], h, _, _, _, _, _ => absurd rfl h
  | l :: ls, _, hl, body, a, b, e => by
    have h13 := (hl l (by simp)).2
    have e' : l ++ (13 :: 10 :: (ls.flatMap (· ++ b!"\r\n") ++ b!"\r\n" ++ body)) = a ++ (13 :: 10 :: 13 :: 10 :: b) := by
      simpa using e
    rcases List.append_eq_append_iff.1 e' with ⟨t, rfl, ht⟩ | ⟨t, rfl, ht⟩
    · -- `a` extends `l`
      cases t with
      | nil =>
        simp only [List.nil_append, List.cons.injEq, true_and] at ht
        cases ls with
        | nil => simp
        | cons l' ls =>
          obtain ⟨n1, n2⟩ := hl l' (by simp)
          cases l' with
          | nil => exact absurd rfl n1
          | cons x l' =>
            simp at ht
            exact absurd (by simp [ht.1]) n2
      | cons x t =>
        cases t with
        | nil => simp at ht
        | cons y t =>
          simp only [List.cons_append, List.cons.injEq] at ht
          obtain ⟨rfl, rfl, ht⟩ := ht
          by_cases hls : ls = []
          · subst hls; simp
          · have := empty_line_last ls hls (fun l hh => hl l (by simp [hh])) body t b (by simpa using ht)
            simp only [List.flatMap_cons, List.length_append, List.length_cons, List.length_nil] at this ⊢
            omega
    · cases t with
      | nil =>
        simp only [List.nil_append, List.cons.injEq, true_and] at ht
        cases ls with
        | nil => simp
        | cons l' ls =>
          obtain ⟨n1, n2⟩ := hl l' (by simp)
          cases l' with
          | nil => exact absurd rfl n1
          | cons x l' =>
            simp at ht
            exact absurd (by simp [ht.1]) n2
      | cons x t =>
        simp at ht
        exact absurd (by simp [ht.1]) h13

/-- Header and body are separated where they should be. -/
theorem first_end (h : m.Ok) (ha : m.scheme ≠ [] → ∀ c ∈ m.authority, Visible c) :
    ∃ head, FirstEnd m.text head m.body ∧ head ++ b!"\r\n" = (m.line :: m.lines).flatMap (· ++ b!"\r\n") := by
  have hcr := no_cr h ha
  generalize hls : m.line :: m.lines = ls at hcr
  have hne : ls ≠ [] := by rw [← hls]; simp
  have hhead : ∃ head, head ++ b!"\r\n" = ls.flatMap (· ++ b!"\r\n") := by
    clear hls hcr
    rcases List.eq_nil_or_concat ls with rfl | ⟨ys, y, rfl⟩
    · exact absurd rfl hne
    · exact ⟨ys.flatMap (· ++ b!"\r\n") ++ y, by simp⟩
  obtain ⟨head, hh⟩ := hhead
  refine ⟨head, ⟨?_, ?_⟩, hh⟩
  · unfold text
    rw [hls, ← hh]
    simp
  · intro a b e
    unfold text at e
    rw [hls] at e
    have := empty_line_last ls hne hcr m.body a b e
    rw [← hh] at this
    simp at this
    omega

theorem header_lines (h : m.Ok) : List.Forall₂ (fun l p => HeaderLine l p.1 p.2) m.lines m.headers := by
  unfold lines
  have hn := h.names
  have hv := h.values
  clear h
  generalize m.headers = ps at *
  induction ps with
  | nil => exact .nil
  | cons p ps ih =>
    refine .cons ?_ (ih (fun q hq => hn q (by simp [hq])) (fun q hq => hv q (by simp [hq])))
    obtain ⟨v1, v2⟩ := hv p (by simp)
    refine ⟨fun hc => (hn p (by simp) _ hc).2 rfl, fun c hc => visible_ascii (hn p (by simp) c hc).1,
      fun c hc => ?_, b!" ", [], by simp, by decide, ?_⟩
    · rcases v1 c hc with h | rfl | rfl
      · exact visible_ascii h
      · decide
      · decide
    · intro c hc hs
      have hvis := v2 c hc
      have := visible_not_space hvis
      rcases hs with hs | rfl | rfl
      · have k := forall_u8 (fun c => !decide (c ∈ b!" \t\n\r") || Py.isSpace c) (by decide +kernel) c
        simp only [hs, decide_true, Bool.not_true, Bool.false_or] at k
        rw [this] at k; cases k
      · revert this; decide
      · revert this; decide

/-- The header block is read as written. -/
theorem parse_headers (h : m.Ok) (ha : m.scheme ≠ [] → ∀ c ∈ m.authority, Visible c) :
    ∃ d, parseRequestHeaders ((m.line :: m.lines).flatMap (· ++ b!"\r\n")) = .ok (m.line, d) ∧
      ∀ k, d.get? k = if k ∈ m.headers.map Prod.fst then
        some ((m.headers.filter (fun p => p.1 = k)).map Prod.snd) else none := by
  refine C35_roundtrip m.line m.lines m.headers h.some ?_ ?_ (header_lines h)
  · exact (no_cr h ha _ (by simp)).1
  · intro l hl
    rintro ⟨a, b, e⟩
    exact (no_cr h ha l hl).2 (by rw [← e]; simp)

theorem getLast_filter (ps : List (Bytes × Bytes)) (k : Bytes) :
    ((if k ∈ ps.map Prod.fst then some ((ps.filter (fun p => p.1 = k)).map Prod.snd) else none).bind List.getLast?) =
      lastValue ps k := by
  induction ps using List.reverseRecOn with
  | nil => simp [lastValue]
  | append_singleton ps p ih =>
    unfold lastValue at ih ⊢
    by_cases hp : p.1 = k
    · simp [hp, List.filter_append]
    · simp only [List.map_append, List.map_cons, List.map_nil, List.mem_append, List.mem_singleton,
        Ne.symm hp, or_false, List.filter_append, List.filter_cons, List.filter_nil, hp, decide_false,
        List.reverse_append, List.reverse_cons, List.reverse_nil, List.nil_append, List.singleton_append,
        List.find?_cons, if_false, List.append_nil, Bool.false_eq_true]
      exact ih

end Spec.Message

end Verif
