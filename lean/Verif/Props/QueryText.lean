import Verif.Props.Utf8
import Verif.Props.Query
/-!
# Escapes in any text, and characters outside ASCII in query strings (C111)
-/

namespace Verif
open Spec

namespace Spec

/-- Two hexadecimal digits in front. -/
def TwoHex : Bytes → Prop
  | x :: y :: _ => (hexValue x).isSome ∧ (hexValue y).isSome
  | _ => False

/-- What percent-decoding is: `%` and two hexadecimal digits are a byte, everything else, a stray `%`
included, stands for itself. -/
inductive Percent : Bytes → Bytes → Prop where
  | nil : Percent [] []
  | lit (c) {t b} : c ≠ 37 → Percent t b → Percent (c :: t) (c :: b)
  | stray {t b} : ¬ TwoHex t → Percent t b → Percent (37 :: t) (37 :: b)
  | esc (x y a c) {t b} : hexValue x = some a → hexValue y = some c → Percent t b →
      Percent (37 :: x :: y :: t) ((a * 16 + c) :: b)

/-- What `unquote` of a text with a `%` is: every longest run of ASCII characters is percent-decoded
and the bytes are read with the charset; the other characters stay where they are. -/
inductive Unquoted (dec : Bytes → UStr → Prop) : UStr → UStr → Prop where
  | nil : Unquoted dec [] []
  | text (c) {t u} : 128 ≤ c → Unquoted dec t u → Unquoted dec (c :: t) (c :: u)
  | run (a) {b t r u} : a ≠ [] → (∀ c ∈ a, c < 128) → (∀ c, t.head? = some c → 128 ≤ c) → Percent a b → dec b r →
      Unquoted dec t u → Unquoted dec (Py.toU a ++ t) (r ++ u)

/-- Bytes written as escapes. -/
inductive Escapes : Bytes → Bytes → Prop where
  | nil : Escapes [] []
  | cons (x y a c) {t b} : hexValue x = some a → hexValue y = some c → Escapes t b →
      Escapes (37 :: x :: y :: t) ((a * 16 + c) :: b)

/-- `text` is `value` as someone may write it in a query string: every character is written as itself
(any but `% + & ; =`) or as the escapes of its bytes in the charset `E`; a space may be `+`. -/
inductive AnyEnc (E : Nat → Bytes → Prop) : UStr → UStr → Prop where
  | nil : AnyEnc E [] []
  | lit (c) {t u} : c ∉ [37, 43, 38, 59, 61] → AnyEnc E t u → AnyEnc E (c :: t) (c :: u)
  | plus {t u} : AnyEnc E t u → AnyEnc E (43 :: t) (32 :: u)
  | esc (c) {b e t u} : E c b → Escapes e b → AnyEnc E t u → AnyEnc E (Py.toU e ++ t) (c :: u)

/-- The bytes of a text in a charset given by the bytes of each character. -/
inductive Coded (E : Nat → Bytes → Prop) : UStr → Bytes → Prop where
  | nil : Coded E [] []
  | cons {c u b t} : E c b → Coded E u t → Coded E (c :: u) (b ++ t)

/-- A query string with these pairs: `k=v` each, joined by `&` or `;`, with empty pieces anywhere. -/
inductive QueryOf (E : Nat → Bytes → Prop) : List (UStr × UStr) → UStr → Prop where
  | nil : QueryOf E [] []
  | one {k v kt vt} : AnyEnc E kt k → AnyEnc E vt v → QueryOf E [(k, v)] (kt ++ 61 :: vt)
  | skip (sep) {ps s} : sep = 38 ∨ sep = 59 → QueryOf E ps s → QueryOf E ps (sep :: s)
  | cons (sep) {k v kt vt ps s} : AnyEnc E kt k → AnyEnc E vt v → sep = 38 ∨ sep = 59 → QueryOf E ps s →
      QueryOf E ((k, v) :: ps) (kt ++ 61 :: vt ++ sep :: s)

end Spec

/-! ## `unquote` -/

theorem unquoteToBytes_percent {t b : Bytes} (h : Percent t b) : unquoteToBytes t = b := by
  induction h with
  | nil => rfl
  | lit c hc _ ih => rw [unquoteToBytes_cons hc, ih]
  | @stray t b hn _ ih =>
    match t, hn, ih with
    | [], _, ih => simp [unquoteToBytes] at ih ⊢; exact ih
    | [x], _, ih => simp only [unquoteToBytes] at ih ⊢; rw [ih]
    | x :: y :: r, hn, ih =>
      have : ¬ ((hexValue x).isSome ∧ (hexValue y).isSome) := hn
      rw [unquoteToBytes, hexVal_eq]
      split
      · rename_i h1 h2; exact absurd ⟨by simp [h1], by simp [h2]⟩ this
      · rw [ih]
  | esc x y a c h1 h2 _ ih =>
    rw [unquoteToBytes, hexVal_eq]
    simp only [h1, h2, ih]

theorem percent_total : ∀ (n : Nat) (t : Bytes), t.length ≤ n → ∃ b, Percent t b := by
  intro n
  induction n with
  | zero => intro t h; cases t with
    | nil => exact ⟨[], .nil⟩
    | cons c t => simp at h
  | succ n ih =>
    intro t h
    cases t with
    | nil => exact ⟨[], .nil⟩
    | cons c t =>
      simp only [List.length_cons] at h
      by_cases hc : c = 37
      · subst hc
        by_cases h2 : TwoHex t
        · match t, h2, h with
          | x :: y :: r, h2, h =>
            obtain ⟨h3, h4⟩ := h2
            obtain ⟨a, ha⟩ := Option.isSome_iff_exists.1 h3
            obtain ⟨d, hd⟩ := Option.isSome_iff_exists.1 h4
            obtain ⟨b, hb⟩ := ih r (by simp at h; omega)
            exact ⟨_, .esc x y a d ha hd hb⟩
        · obtain ⟨b, hb⟩ := ih t (by omega)
          exact ⟨_, .stray h2 hb⟩
      · obtain ⟨b, hb⟩ := ih t (by omega)
        exact ⟨_, .lit c hc hb⟩

/-- **C111**, `unquote_to_bytes` percent-decodes, whatever it is given. -/
theorem C111_percent (t b : Bytes) : unquoteToBytes t = b ↔ Percent t b := by
  refine ⟨fun h => ?_, unquoteToBytes_percent⟩
  obtain ⟨b', h'⟩ := percent_total t.length t (Nat.le_refl _)
  rw [← h, unquoteToBytes_percent h']
  exact h'

theorem ascii_run (s : UStr) (c : Nat) (t : UStr) (hs : s = c :: t) (hc : c < 128) :
    ∃ (a : Bytes) (r : UStr), a ≠ [] ∧ (∀ c ∈ a, c < 128) ∧ (∀ c, r.head? = some c → 128 ≤ c) ∧ s = Py.toU a ++ r ∧
      (s.takeWhile (· < 128)).map UInt8.ofNat = a ∧ s.dropWhile (· < 128) = r := by
  have hl : ∀ n ∈ s.takeWhile (· < 128), n < 128 := fun n hn => by
    have := List.all_eq_true.1 (List.all_takeWhile (p := fun n : Nat => decide (n < 128)) (l := s)) n hn
    simpa using this
  have ht : Py.toU ((s.takeWhile (· < 128)).map UInt8.ofNat) = s.takeWhile (· < 128) := by
    unfold Py.toU
    rw [List.map_map]
    conv_rhs => rw [← List.map_id (s.takeWhile (· < 128))]
    refine List.map_congr_left fun n hn => ?_
    have := hl n hn
    simp only [Function.comp, id]
    exact toNat_ofNat (by omega)
  refine ⟨_, _, ?_, ?_, ?_, ?_, rfl, rfl⟩
  · subst hs; simp [hc]
  · intro x hx
    obtain ⟨n, hn, rfl⟩ := List.mem_map.1 hx
    have := hl n hn
    rw [UInt8.lt_iff_toNat_lt, toNat_ofNat (by omega)]
    exact this
  · intro x hx
    by_contra hlt
    have := List.head?_dropWhile_not (fun n : Nat => decide (n < 128)) s
    rw [hx] at this
    simp at this
    omega
  · rw [ht, List.takeWhile_append_dropWhile]

theorem unquoteRuns_iff (C : Codecs) (enc : Bytes) : ∀ (n : Nat) (s u : UStr), s.length ≤ n →
    (unquoteRuns C enc n s = .ok u ↔ Unquoted (fun b r => C.decodeReplace enc b = .ok r) s u) := by
  intro n
  induction n with
  | zero =>
    intro s u h
    cases s with
    | cons c t => simp at h
    | nil =>
      simp only [unquoteRuns, Except.ok.injEq]
      constructor
      · rintro rfl; exact .nil
      · intro h
        generalize hs : ([] : UStr) = s at h
        cases h with
        | nil => rfl
        | text => cases hs
        | run a ha =>
          exfalso
          have := congrArg List.length hs
          simp only [List.length_nil, List.length_append, Py.toU, List.length_map] at this
          exact ha (List.length_eq_zero_iff.1 (by omega))
  | succ n ih =>
    intro s u h
    cases s with
    | nil =>
      simp only [unquoteRuns, Except.ok.injEq]
      constructor
      · rintro rfl; exact .nil
      · intro h
        generalize hs : ([] : UStr) = s at h
        cases h with
        | nil => rfl
        | text => cases hs
        | run a ha =>
          exfalso
          have := congrArg List.length hs
          simp only [List.length_nil, List.length_append, Py.toU, List.length_map] at this
          exact ha (List.length_eq_zero_iff.1 (by omega))
    | cons c t =>
      rw [unquoteRuns]
      by_cases hc : c < 128
      · rw [if_pos hc]
        obtain ⟨a, r, h1, h2, h3, h4, h5, h6⟩ := ascii_run (c :: t) c t rfl hc
        rw [h5, h6]
        have hr : r.length ≤ n := by
          have := congrArg List.length h4
          simp only [List.length_cons, List.length_append, Py.toU, List.length_map] at this h
          have : 0 < a.length := List.length_pos_iff.2 h1
          omega
        constructor
        · intro e
          cases hd : C.decodeReplace enc (unquoteToBytes a) with
          | error x => rw [hd] at e; cases e
          | ok d =>
            rw [hd] at e
            simp only at e
            cases hu : unquoteRuns C enc n r with
            | error x => rw [hu] at e; cases e
            | ok w =>
              rw [hu] at e
              simp only [Except.ok.injEq] at e
              subst e
              rw [h4]
              exact .run a h1 h2 h3 ((C111_percent a _).1 rfl) hd ((ih r w hr).1 hu)
        · intro e
          generalize hs : c :: t = s at e h4
          cases e with
          | nil => cases hs
          | text c' hc' _ => cases hs; omega
          | run a' ha1 ha2 ha3 hp hd hu =>
            rename_i b t' r' u'
            have key : ∀ (x y : Bytes) (p q : UStr), (∀ c ∈ x, c < 128) → (∀ c ∈ y, c < 128) →
                (∀ c, p.head? = some c → 128 ≤ c) → (∀ c, q.head? = some c → 128 ≤ c) →
                Py.toU x ++ p = Py.toU y ++ q → x = y ∧ p = q := by
              intro x
              induction x with
              | nil =>
                intro y p q _ hy hp _ e
                cases y with
                | nil => exact ⟨rfl, e⟩
                | cons d y =>
                  have : p.head? = some d.toNat := by
                    change p = d.toNat :: _ at e
                    rw [e]; rfl
                  have h8 := hp _ this
                  have := UInt8.lt_iff_toNat_lt.1 (hy d (by simp))
                  simp at this; omega
              | cons d x ihx =>
                intro y p q hx hy hp hq e
                cases y with
                | nil =>
                  have : q.head? = some d.toNat := by
                    change d.toNat :: _ = q at e
                    rw [← e]; rfl
                  have h8 := hq _ this
                  have := UInt8.lt_iff_toNat_lt.1 (hx d (by simp))
                  simp at this; omega
                | cons d' y =>
                  change d.toNat :: _ = d'.toNat :: _ at e
                  simp only [List.cons.injEq] at e
                  obtain ⟨e1, e2⟩ := ihx y p q (fun c hc => hx c (by simp [hc])) (fun c hc => hy c (by simp [hc])) hp hq e.2
                  exact ⟨by rw [UInt8.toNat_inj.1 e.1, e1], e2⟩
            obtain ⟨rfl, rfl⟩ := key _ _ _ _ ha2 h2 ha3 h3 h4
            rw [unquoteToBytes_percent hp, hd]
            simp only [(ih _ _ hr).2 hu]
      · rw [if_neg hc]
        have ht : t.length ≤ n := by simp at h; omega
        constructor
        · intro e
          cases hu : unquoteRuns C enc n t with
          | error x => rw [hu] at e; cases e
          | ok w =>
            rw [hu] at e
            simp only [Except.ok.injEq] at e
            subst e
            exact .text c (by omega) ((ih t w ht).1 hu)
        · intro e
          generalize hs : c :: t = s at e
          cases e with
          | nil => cases hs
          | text c' hc' hu => cases hs; simp only [(ih _ _ ht).2 hu]
          | run a ha1 ha2 =>
            exfalso
            cases a with
            | nil => exact ha1 rfl
            | cons d a =>
              change _ = d.toNat :: _ at hs
              simp only [List.cons.injEq] at hs
              have := UInt8.lt_iff_toNat_lt.1 (ha2 d (by simp))
              simp at this; omega

/-- **C111**, `unquote` of any text: one without `%` stays as it is, any other is percent-decoded in
every run of ASCII characters. -/
theorem C111_unquote (C : Codecs) (enc : Bytes) (s u : UStr) :
    unquoteU C enc s = .ok u ↔
      (37 ∉ s ∧ u = s) ∨ (37 ∈ s ∧ Unquoted (fun b r => C.decodeReplace enc b = .ok r) s u) := by
  unfold unquoteU
  by_cases h : 37 ∈ s
  · rw [if_pos h, unquoteRuns_iff C enc _ s u (Nat.le_refl _)]
    simp [h]
  · rw [if_neg h]
    simp [h, eq_comm]

/-- A run of escapes, a raw character and a stray `%`: each is read as it should be. -/
example : (unquoteU pyCodecs b!"utf-8" (Py.toU b!"a%C3%A9" ++ [8364] ++ Py.toU b!"b%41%")).toOption =
    some ([97, 233, 8364, 98, 65, 37] : UStr) := by
  decide +kernel

/-! ## Query strings -/

theorem Spec.Pct.percent {t b : Bytes} (h : Pct t b) : Percent t b := by
  induction h with
  | nil => exact .nil
  | lit c hc _ ih => exact .lit c hc ih
  | esc x y a c h1 h2 _ ih => exact .esc x y a c h1 h2 ih

theorem hexVal_clean {x a : UInt8} (h : hexValue x = some a) : x < 128 ∧ x ∉ b!"%+&;=" := by
  have := forall_u8 (fun x => (hexValue x).isNone || decide (x < 128 ∧ x ∉ b!"%+&;=")) (by decide +kernel) x
  rw [h] at this
  simpa using this

theorem Spec.Escapes.pct {e b a d : Bytes} (h : Escapes e b) (ha : Pct a d) : Pct (e ++ a) (b ++ d) := by
  induction h with
  | nil => exact ha
  | cons x y v w h1 h2 _ ih => exact .esc x y v w h1 h2 ih

theorem Spec.Escapes.clean {e b : Bytes} (h : Escapes e b) : ∀ c ∈ e, c < 128 ∧ c ∉ b!"+&;=" := by
  induction h with
  | nil => simp
  | cons x y v w h1 h2 _ ih =>
    have hx := hexVal_clean h1
    have hy := hexVal_clean h2
    intro c hc
    rcases List.mem_cons.1 hc with rfl | hc
    · decide
    rcases List.mem_cons.1 hc with rfl | hc
    · exact ⟨hx.1, fun hm => hx.2 (List.mem_cons_of_mem _ hm)⟩
    rcases List.mem_cons.1 hc with rfl | hc
    · exact ⟨hy.1, fun hm => hy.2 (List.mem_cons_of_mem _ hm)⟩
    exact ih c hc

theorem Spec.Escapes.nonempty {e b : Bytes} (h : Escapes e b) (hb : b ≠ []) : (37 : UInt8) ∈ e := by
  cases h with
  | nil => exact absurd rfl hb
  | cons => simp

theorem replaceChar_append {α : Type} [DecidableEq α] (x y : α) (s t : List α) :
    Py.replaceChar x y (s ++ t) = Py.replaceChar x y s ++ Py.replaceChar x y t := by
  simp [Py.replaceChar]

theorem replaceChar_cons {α : Type} [DecidableEq α] (x y c : α) (t : List α) :
    Py.replaceChar x y (c :: t) = (if c = x then y else c) :: Py.replaceChar x y t := rfl

theorem Spec.Escapes.unplus {e b : Bytes} (h : Escapes e b) : Py.replaceChar 43 32 (Py.toU e) = Py.toU e := by
  unfold Py.replaceChar
  conv_rhs => rw [← List.map_id (Py.toU e)]
  refine List.map_congr_left fun n hn => ?_
  obtain ⟨c, hc, rfl⟩ := List.mem_map.1 hn
  have := (h.clean c hc).2
  rw [if_neg]; rfl
  intro he
  exact this (by rw [show c = 43 from UInt8.toNat_inj.1 he]; decide)

section
variable {E : Nat → Bytes → Prop}

theorem Spec.Coded.of_nil (hne : ∀ c b, E c b → b ≠ []) {u : UStr} (h : Coded E u []) : u = [] := by
  generalize hb : ([] : Bytes) = b at h
  cases h with
  | nil => rfl
  | cons hE => exact absurd (List.append_eq_nil_iff.1 hb.symm).1 (hne _ _ hE)

/-- The run in front of a text that someone wrote. -/
theorem any_runs {dec : Bytes → UStr → Prop} (hne : ∀ c b, E c b → b ≠ []) (hasc : ∀ c : UInt8, c < 128 → E c.toNat [c])
    (hdec : ∀ u b, Coded E u b → dec b u) {t u : UStr} (h : AnyEnc E t u) :
    ∃ (a b : Bytes) (cs rest u' : UStr), Py.replaceChar 43 32 t = Py.toU a ++ rest ∧
      (∀ c, rest.head? = some c → 128 ≤ c) ∧ (∀ c ∈ a, c < 128) ∧ Pct a b ∧ Coded E cs b ∧ u = cs ++ u' ∧
      Unquoted dec rest u' := by
  have close : ∀ {a b : Bytes} {cs rest u' : UStr}, (∀ c, rest.head? = some c → 128 ≤ c) → (∀ c ∈ a, c < 128) →
      Pct a b → Coded E cs b → Unquoted dec rest u' → Unquoted dec (Py.toU a ++ rest) (cs ++ u') := by
    intro a b cs rest u' h1 h2 h3 h4 h5
    by_cases ha : a = []
    · subst ha
      cases h3
      rw [h4.of_nil hne]
      exact h5
    · exact .run a ha h2 h1 h3.percent (hdec _ _ h4) h5
  induction h with
  | nil => exact ⟨[], [], [], [], [], rfl, by simp, by simp, .nil, .nil, rfl, .nil⟩
  | @lit c t u hc _ ih =>
    obtain ⟨a, b, cs, rest, u', h1, h2, h3, h4, h5, h6, h7⟩ := ih
    simp only [List.mem_cons, List.not_mem_nil, or_false, not_or] at hc
    rw [replaceChar_cons, if_neg hc.2.1, h1]
    by_cases hl : c < 128
    · have hn : (UInt8.ofNat c).toNat = c := toNat_ofNat (by omega)
      refine ⟨UInt8.ofNat c :: a, UInt8.ofNat c :: b, c :: cs, rest, u', ?_, h2, ?_, .lit _ ?_ h4, ?_, by rw [h6]; rfl, h7⟩
      · simp only [Py.toU, List.map_cons, hn, List.cons_append]
      · intro x hx
        rcases List.mem_cons.1 hx with rfl | hx
        · rw [UInt8.lt_iff_toNat_lt, hn]; exact hl
        · exact h3 x hx
      · intro e; rw [e] at hn; exact hc.1 hn.symm
      · have := hasc (UInt8.ofNat c) (by rw [UInt8.lt_iff_toNat_lt, hn]; exact hl)
        rw [hn] at this
        exact .cons this h5
    · refine ⟨[], [], [], c :: (Py.toU a ++ rest), c :: u, rfl, by simp; omega, by simp, .nil, .nil, rfl, .text c (by omega) ?_⟩
      rw [h6]
      exact close h2 h3 h4 h5 h7
  | plus _ ih =>
    obtain ⟨a, b, cs, rest, u', h1, h2, h3, h4, h5, h6, h7⟩ := ih
    rw [replaceChar_cons, if_pos rfl, h1]
    refine ⟨32 :: a, 32 :: b, 32 :: cs, rest, u', rfl, h2, ?_, .lit _ (by decide) h4, ?_, by rw [h6]; rfl, h7⟩
    · intro x hx
      rcases List.mem_cons.1 hx with rfl | hx
      · decide
      · exact h3 x hx
    · exact .cons (hasc 32 (by decide)) h5
  | @esc c b0 e t u hE he _ ih =>
    obtain ⟨a, b, cs, rest, u', h1, h2, h3, h4, h5, h6, h7⟩ := ih
    rw [replaceChar_append, he.unplus, h1]
    refine ⟨e ++ a, b0 ++ b, c :: cs, rest, u', by simp [Py.toU], h2, ?_, he.pct h4, .cons hE h5, by rw [h6]; rfl, h7⟩
    intro x hx
    rcases List.mem_append.1 hx with hx | hx
    · exact (he.clean x hx).1
    · exact h3 x hx

/-- Reading a name or value that someone wrote. -/
theorem unquote_any {C : Codecs} {enc : Bytes} (hne : ∀ c b, E c b → b ≠ [])
    (hasc : ∀ c : UInt8, c < 128 → E c.toNat [c]) (hdec : ∀ u b, Coded E u b → C.decodeReplace enc b = .ok u)
    {t u : UStr} (h : AnyEnc E t u) : unquoteU C enc (Py.replaceChar 43 32 t) = .ok u := by
  rw [C111_unquote]
  by_cases h37 : 37 ∈ Py.replaceChar 43 32 t
  · refine .inr ⟨h37, ?_⟩
    obtain ⟨a, b, cs, rest, u', h1, h2, h3, h4, h5, h6, h7⟩ :=
      any_runs (dec := fun b r => C.decodeReplace enc b = .ok r) hne hasc hdec h
    rw [h1, h6]
    by_cases ha : a = []
    · subst ha
      cases h4
      rw [h5.of_nil hne]
      exact h7
    · exact .run a ha h3 h2 h4.percent (hdec _ _ h5) h7
  · refine .inl ⟨h37, ?_⟩
    induction h with
    | nil => rfl
    | lit c hc _ ih =>
      simp only [List.mem_cons, List.not_mem_nil, or_false, not_or] at hc
      rw [replaceChar_cons, if_neg hc.2.1] at h37 ⊢
      rw [← ih (fun h => h37 (List.mem_cons_of_mem _ h))]
    | plus _ ih =>
      rw [replaceChar_cons, if_pos rfl] at h37 ⊢
      rw [← ih (fun h => h37 (List.mem_cons_of_mem _ h))]
    | esc c hE he _ ih =>
      rw [replaceChar_append, he.unplus] at h37
      exact absurd (List.mem_append_left _ (mem_toU.2 (he.nonempty (hne _ _ hE)))) h37

theorem Spec.AnyEnc.clean {t u : UStr} (h : AnyEnc E t u) : ∀ c ∈ t, c ≠ 38 ∧ c ≠ 59 ∧ c ≠ 61 := by
  induction h with
  | nil => simp
  | lit c hc _ ih =>
    simp only [List.mem_cons, List.not_mem_nil, or_false, not_or] at hc
    intro x hx
    rcases List.mem_cons.1 hx with rfl | hx
    · exact hc.2.2
    · exact ih x hx
  | plus _ ih =>
    intro x hx
    rcases List.mem_cons.1 hx with rfl | hx
    · decide
    · exact ih x hx
  | esc c hE he _ ih =>
    intro x hx
    rcases List.mem_append.1 hx with hx | hx
    · obtain ⟨d, hd, rfl⟩ := List.mem_map.1 hx
      have := (he.clean d hd).2
      refine ⟨?_, ?_, ?_⟩ <;> intro e
      · exact this (by rw [show d = 38 from UInt8.toNat_inj.1 e]; decide)
      · exact this (by rw [show d = 59 from UInt8.toNat_inj.1 e]; decide)
      · exact this (by rw [show d = 61 from UInt8.toNat_inj.1 e]; decide)
    · exact ih x hx

theorem noSep_piece {kt vt k v : UStr} (hk : AnyEnc E kt k) (hv : AnyEnc E vt v) :
    ∀ c ∈ kt ++ 61 :: vt, isFieldSep c = false := by
  intro c hc
  have : c ≠ 38 ∧ c ≠ 59 := by
    rcases List.mem_append.1 hc with hc | hc
    · exact ⟨(hk.clean c hc).1, (hk.clean c hc).2.1⟩
    · rcases List.mem_cons.1 hc with rfl | hc
      · decide
      · exact ⟨(hv.clean c hc).1, (hv.clean c hc).2.1⟩
  by_contra hs
  rw [Bool.not_eq_false, isFieldSep_iff] at hs
  rcases hs with hs | hs
  · exact this.1 hs
  · exact this.2 hs

/-- **C111** Whatever characters of the names and values are written raw and whatever are escaped,
parsing gives the pairs, in order, for every charset that is given by the bytes of each character. -/
theorem C111_pairs {C : Codecs} {enc : Bytes} (hne : ∀ c b, E c b → b ≠ [])
    (hasc : ∀ c : UInt8, c < 128 → E c.toNat [c]) (hdec : ∀ u b, Coded E u b → C.decodeReplace enc b = .ok u)
    {ps : List (UStr × UStr)} {s : UStr} (h : QueryOf E ps s) : limitedParseQsl C s true enc none = .ok ps := by
  have piece : ∀ {kt vt k v : UStr}, AnyEnc E kt k → AnyEnc E vt v →
      parseField C enc true (kt ++ 61 :: vt) = .ok (some (k, v)) := by
    intro kt vt k v hk hv
    have h61 : (61 : Nat) ∉ kt := fun h => (hk.clean 61 h).2.2 rfl
    unfold parseField
    rw [if_neg (by simp), Py.splitFirst_app h61]
    simp only [or_true, if_true, unquote_any hne hasc hdec hk, unquote_any hne hasc hdec hv]
  have empty : parseField C enc true [] = .ok none := rfl
  have sepOk : ∀ {sep : Nat}, sep = 38 ∨ sep = 59 → isFieldSep sep = true := fun h => (isFieldSep_iff _).2 h
  show parseFields C enc true (splitFields s) = .ok ps
  induction h with
  | nil => rfl
  | one hk hv =>
    rw [splitFields_single (noSep_piece hk hv)]
    simp only [parseFields, piece hk hv]
    rfl
  | skip sep hs _ ih =>
    simp only [splitFields, sepOk hs, if_true, parseFields, empty, ih]
    rfl
  | cons sep hk hv hs _ ih =>
    rw [splitFields_append (noSep_piece hk hv) _ (sepOk hs)]
    simp only [parseFields, piece hk hv, ih]
    rfl

end

theorem coded_utf8 {u : UStr} {b : Bytes} (h : Coded Utf8Char u b) : Utf8 u b := by
  induction h with
  | nil => exact .nil
  | cons hE _ ih => exact .cons hE ih

/-- The bytes of the 256 characters of ISO-8859-1. -/
def LatinChar (c : Nat) (b : Bytes) : Prop := ∃ x : UInt8, x.toNat = c ∧ b = [x]

theorem coded_latin {u : UStr} {b : Bytes} (h : Coded LatinChar u b) : u = Py.toU b := by
  induction h with
  | nil => rfl
  | cons hE _ ih => obtain ⟨x, rfl, rfl⟩ := hE; rw [ih]; rfl

/-- **C111** for a `QueryDict` under UTF-8: the pairs written in any way in the text of the query
string, itself sent as UTF-8, are what the dictionary has. -/
theorem C111_utf8 {S : Settings} (he : lookupEnc S.defaultCharset = some .utf8) {ps : List (UStr × UStr)} {t : UStr}
    {s : Bytes} (h : QueryOf Utf8Char ps t) (hs : Utf8 t s) (hlim : Admits S.maxFields (numPieces t)) (mt : Bool)
    (m : Mem PyStr PyStr) (wf : m.WF) :
    ∃ m', newQueryDict pyCodecs S (some (.b s)) mt m = (.ok m.dicts.length, m') ∧
      ∀ k, m'.abs m.dicts.length (.u k) =
        if k ∈ ps.map Prod.fst then some (((ps.filter (fun p => p.1 = k)).map Prod.snd).map (fun v => .atom (.u v)))
        else none := by
  have hp := C111_pairs (C := pyCodecs) (enc := S.defaultCharset) (fun c b h => Spec.Utf8Char.ne_nil h)
    (fun c hc => .one (by simpa [UInt8.lt_iff_toNat_lt] using hc) rfl)
    (fun u b h => by rw [py_replace he, (coded_utf8 h).replace]) h
  have hq : queryText pyCodecs S (some (.b s)) = .ok t := by
    unfold queryText
    simp only [py_decode he, (utf8Decode_iff _ _).2 hs]
  obtain ⟨m', h1, h2⟩ := newQueryDict_abs pyCodecs S (some (.b s)) mt m wf hq
    ((limited_admits (le_max_right _ _) hlim).trans hp)
  exact ⟨m', h1, fun k => by rw [h2, addAll_pairs]⟩

/-- **C111** the same under ISO-8859-1, the default. -/
theorem C111_latin1 {S : Settings} (he : lookupEnc S.defaultCharset = some .latin1) {ps : List (UStr × UStr)} {s : Bytes}
    (h : QueryOf LatinChar ps (Py.toU s)) (hlim : Admits S.maxFields (numPieces (Py.toU s))) (mt : Bool) (m : Mem PyStr PyStr) (wf : m.WF) :
    ∃ m', newQueryDict pyCodecs S (some (.b s)) mt m = (.ok m.dicts.length, m') ∧
      ∀ k, m'.abs m.dicts.length (.u k) =
        if k ∈ ps.map Prod.fst then some (((ps.filter (fun p => p.1 = k)).map Prod.snd).map (fun v => .atom (.u v)))
        else none := by
  have hp := C111_pairs (C := pyCodecs) (enc := S.defaultCharset) (fun c b h => by obtain ⟨x, _, rfl⟩ := h; simp)
    (fun c hc => ⟨c, rfl, rfl⟩)
    (fun u b h => by simp only [pyCodecs, he, Enc.decodeReplace, coded_latin h]) h
  have hq : queryText pyCodecs S (some (.b s)) = .ok (Py.toU s) := by
    unfold queryText
    simp only [pyCodecs, he, Enc.decode]
  obtain ⟨m', h1, h2⟩ := newQueryDict_abs pyCodecs S (some (.b s)) mt m wf hq
    ((limited_admits (le_max_right _ _) hlim).trans hp)
  exact ⟨m', h1, fun k => by rw [h2, addAll_pairs]⟩

/-- `%E9=é%C3%A9` in ISO-8859-1 has the name `é` and the value `éÃ©`. -/
example : QueryOf LatinChar [([0xE9], [0xE9, 0xC3, 0xA9])] (Py.toU (b!"%E9=" ++ [0xE9] ++ b!"%C3%A9")) := by
  refine .one (kt := Py.toU b!"%E9") (vt := 0xE9 :: Py.toU b!"%C3%A9") ?_ ?_
  · exact .esc 0xE9 ⟨0xE9, rfl, rfl⟩ (.cons 69 57 14 9 rfl rfl .nil) .nil
  · refine .lit 0xE9 (by decide) ?_
    refine .esc 0xC3 (e := b!"%C3") ⟨0xC3, rfl, rfl⟩ (.cons 67 51 12 3 rfl rfl .nil) ?_
    exact .esc 0xA9 (e := b!"%A9") ⟨0xA9, rfl, rfl⟩ (.cons 65 57 10 9 rfl rfl .nil) .nil

/-- `&é=%c3%A9+` in UTF-8 has the name `é` and the value `é `. -/
example : QueryOf Utf8Char [([0xE9], [0xE9, 32])] (38 :: 0xE9 :: 61 :: Py.toU b!"%c3%A9+") := by
  refine .skip 38 (.inl rfl) (.one (kt := [0xE9]) (vt := Py.toU b!"%c3%A9+") (.lit 0xE9 (by decide) .nil) ?_)
  refine .esc 0xE9 (b := [0xC3, 0xA9]) (e := b!"%c3%A9") (t := [43]) ?_ ?_ (.plus .nil)
  · exact Utf8Char.two (h := 3) (v1 := 41) (by decide) (by decide) rfl ⟨by decide, rfl⟩ rfl
  · exact .cons 99 51 12 3 rfl rfl (.cons 65 57 10 9 rfl rfl .nil)

end Verif
