import Verif.Props.Decoding
import Verif.Props.Util
/-!
# C71: what `urlsafe_base64_decode` makes of every string
-/

namespace Verif
open Verif.Spec

namespace Spec

/-- The character of the usual alphabet for one of the URL-safe alphabet. -/
def PlainChar (c p : UInt8) : Prop := (c = 45 → p = 43) ∧ (c = 95 → p = 47) ∧ (c ≠ 45 → c ≠ 95 → p = c)

/-- The text that is decoded: in the usual alphabet, with as many `=` as characters are over after groups of four. -/
def Padded (s t : Bytes) : Prop := ∃ u, List.Forall₂ PlainChar s u ∧ t = u ++ List.replicate (s.length % 4) 61

end Spec

theorem fromUrlsafe_plain (s : Bytes) : List.Forall₂ PlainChar s (s.map fromUrlsafe) := by
  induction s with
  | nil => exact .nil
  | cons c s ih =>
    refine .cons ⟨?_, ?_, ?_⟩ ih
    · rintro rfl; decide
    · rintro rfl; decide
    · intro h1 h2; simp [fromUrlsafe, h1, h2]

theorem plain_unique {s u : Bytes} (h : List.Forall₂ PlainChar s u) : u = s.map fromUrlsafe := by
  induction h with
  | nil => rfl
  | @cons c p s u h _ ih =>
    rw [List.map_cons, ih]
    congr 1
    unfold fromUrlsafe
    by_cases h1 : c = 45
    · rw [if_pos h1]; exact h.1 h1
    · rw [if_neg h1]
      by_cases h2 : c = 95
      · rw [if_pos h2]; exact h.2.1 h2
      · rw [if_neg h2]; exact h.2.2 h1 h2

theorem padded_iff (s t : Bytes) : Padded s t ↔ t = (s ++ List.replicate (s.length % 4) 61).map fromUrlsafe := by
  have hr : (List.replicate (s.length % 4) (61 : UInt8)).map fromUrlsafe = List.replicate (s.length % 4) 61 := by
    rw [List.map_replicate]; rfl
  rw [List.map_append, hr]
  constructor
  · rintro ⟨u, h, rfl⟩; rw [plain_unique h]
  · intro h; exact ⟨_, fromUrlsafe_plain s, h⟩

/-- **C71, exactly**: which strings `urlsafe_base64_decode` decodes, and to what; the others raise `UnicodeDecodeError`
if they are not ASCII and `TypeError` if they are. -/
theorem C71_exact (s : Bytes) :
    (∀ d, urlsafeBase64Decode s = .ok d ↔
      (∀ c ∈ s, c < 128) ∧ ∃ t vs, Padded s t ∧ B64Counts 0 t vs ∧ B64Bytes vs d) ∧
    (urlsafeBase64Decode s = .error .unicodeDecodeError ↔ ∃ c ∈ s, 128 ≤ c) ∧
    (urlsafeBase64Decode s = .error .typeError ↔
      (∀ c ∈ s, c < 128) ∧ ¬ ∃ t vs, Padded s t ∧ B64Counts 0 t vs) := by
  have hx : ∀ d, Py.b64decode ((s ++ List.replicate (s.length % 4) 61).map fromUrlsafe) = some d ↔
      ∃ t vs, Padded s t ∧ B64Counts 0 t vs ∧ B64Bytes vs d := by
    intro d
    rw [C121_exact]
    constructor
    · rintro ⟨vs, h⟩; exact ⟨_, vs, (padded_iff _ _).2 rfl, h⟩
    · rintro ⟨t, vs, h, h'⟩; rw [padded_iff] at h; subst h; exact ⟨vs, h'⟩
  have hn : Py.b64decode ((s ++ List.replicate (s.length % 4) 61).map fromUrlsafe) = none ↔
      ¬ ∃ t vs, Padded s t ∧ B64Counts 0 t vs := by
    constructor
    · rintro h ⟨t, vs, hp, hc⟩
      rw [padded_iff] at hp
      subst hp
      obtain ⟨d, rest, e, _⟩ := counts_decode hc (char := 0) [] (by omega) (by simp [b64left])
      unfold Py.b64decode at h
      simp only [b64left] at e
      rw [h] at e
      cases e
    · intro h
      cases hd : Py.b64decode ((s ++ List.replicate (s.length % 4) 61).map fromUrlsafe) with
      | none => rfl
      | some d =>
        obtain ⟨t, vs, a, b, _⟩ := (hx d).1 hd
        exact absurd ⟨t, vs, a, b⟩ h
  have hasc : (∃ c ∈ s, 128 ≤ c) ↔ ¬ ∀ c ∈ s, c < 128 := by
    simp only [not_forall, UInt8.not_lt, exists_prop]
  rw [hasc]
  unfold urlsafeBase64Decode
  by_cases ha : ∀ c ∈ s, c < 128
  · have hb : Py.isAscii s = true := (isAscii_iff s).2 ha
    rw [if_neg (by simp [hb])]
    cases hd : Py.b64decode ((s ++ List.replicate (s.length % 4) 61).map fromUrlsafe) with
    | none =>
      refine ⟨fun d => ⟨fun h => by simp at h, ?_⟩, ⟨fun h => by simp at h, fun h => absurd ha h⟩, fun _ => ⟨ha, hn.1 hd⟩, fun _ => rfl⟩
      rintro ⟨_, h⟩
      rw [(hx d).2 h] at hd
      cases hd
    | some d =>
      refine ⟨fun d' => ?_, ⟨fun h => by simp at h, fun h => absurd ha h⟩, ?_⟩
      · rw [← hx d', hd]
        exact ⟨fun h => ⟨ha, by injection h with h; rw [h]⟩, fun h => by have := h.2; injection this with h; rw [h]⟩
      · rw [← hn, hd]; simp
  · have hb : Py.isAscii s = false := by
      rw [Bool.eq_false_iff]; exact fun h => ha ((isAscii_iff s).1 h)
    rw [if_pos hb]
    refine ⟨fun d => ?_, by simp [ha], ?_⟩
    · exact ⟨fun h => by simp at h, fun h => absurd h.1 ha⟩
    · exact ⟨fun h => by simp at h, fun h => absurd h.1 ha⟩

/-- Characters of the alphabet only move the place in the group. -/
theorem counts_alpha {pads : Bytes} : ∀ (t : Bytes) (q : Nat), (∀ c ∈ t, c ∈ b64alphabet) → q < 4 → ∀ vs,
    B64Counts q (t ++ pads) vs ↔ ∃ a b, vs = a ++ b ∧ a.length = t.length ∧
      List.Forall₂ (fun c v => b64alphabet[v]? = some c) t a ∧ B64Counts ((q + t.length) % 4) pads b := by
  intro t
  induction t with
  | nil =>
    intro q _ hq vs
    constructor
    · intro h
      refine ⟨[], vs, rfl, rfl, .nil, ?_⟩
      simpa [Nat.mod_eq_of_lt hq] using h
    · rintro ⟨a, b, rfl, h1, _, h2⟩
      have : a = [] := List.eq_nil_of_length_eq_zero h1
      subst this
      simpa [Nat.mod_eq_of_lt hq] using h2
  | cons c t ih =>
    intro q hc hq vs
    have hin := hc c (by simp)
    have h61 : c ≠ 61 := by rintro rfl; exact absurd hin (by decide)
    have ht : ∀ c ∈ t, c ∈ b64alphabet := fun x hx => hc x (by simp [hx])
    have he : (q + (c :: t).length) % 4 = ((q + 1) % 4 + t.length) % 4 := by
      simp only [List.length_cons]; omega
    rw [he]
    constructor
    · intro h
      rw [List.cons_append] at h
      generalize hl : c :: (t ++ pads) = l at h
      cases h with
      | full => cases hl
      | junk hj _ => cases hl; exact absurd hin hj.1
      | @char _ _ _ v vs' hv h =>
        cases hl
        obtain ⟨a, b, rfl, h1, h2, h3⟩ := (ih _ ht (Nat.mod_lt _ (by omega)) _).1 h
        exact ⟨v :: a, b, rfl, by simp [h1], .cons hv h2, h3⟩
      | stray => cases hl; exact absurd rfl h61
      | stray2 => cases hl; exact absurd rfl h61
      | pad2 => rw [List.cons_append] at hl; injection hl with e; exact absurd e h61
      | pad3 => cases hl; exact absurd rfl h61
    · rintro ⟨a, b, rfl, h1, h2, h3⟩
      cases h2 with
      | @cons _ v _ a' hv h2 =>
        refine .char hv ((ih _ ht (Nat.mod_lt _ (by omega)) _).2 ⟨a', b, rfl, by simpa using h1, h2, h3⟩)

theorem urlSafe_alphabet : ∀ c : UInt8, UrlSafe c → c < 128 ∧ fromUrlsafe c ∈ b64alphabet := by
  intro c
  unfold UrlSafe
  have := forall_u8 (fun c => decide (((65 ≤ c ∧ c ≤ 90) ∨ (97 ≤ c ∧ c ≤ 122) ∨ (48 ≤ c ∧ c ≤ 57) ∨ c = 45 ∨ c = 95) →
    c < 128 ∧ fromUrlsafe c ∈ b64alphabet)) (by decide +kernel) c
  exact of_decide_eq_true this

theorem flatMap_bits {α : Type} (f : α → Nat) (n : Nat) (l : List α) :
    (l.flatMap fun x => bitsOf (f x) n).length = l.length * n := by
  induction l with
  | nil => simp
  | cons a l ih => rw [List.flatMap_cons, List.length_append, bitsOf_length, ih, List.length_cons, Nat.succ_mul]; omega

theorem b64Bytes_length {vs : List Nat} {d : Bytes} (h : B64Bytes vs d) : d.length = vs.length * 6 / 8 := by
  obtain ⟨rest, h1, h2⟩ := h
  have := congrArg List.length h1
  simp only [List.length_append, flatMap_bits] at this
  omega

/-- **C71 is false of the code for every text in the URL-safe alphabet that is one character longer than groups of
four**: it raises `TypeError`.  Every other text in the alphabet is decoded, three bytes for four characters. -/
theorem C71_alphabet_refuted (s : Bytes) (h : ∀ c ∈ s, UrlSafe c) :
    (s.length % 4 = 1 → urlsafeBase64Decode s = .error .typeError) ∧
    (s.length % 4 ≠ 1 → ∃ d, urlsafeBase64Decode s = .ok d ∧ d.length = s.length * 3 / 4) := by
  have hasc : ∀ c ∈ s, c < 128 := fun c hc => (urlSafe_alphabet c (h c hc)).1
  have halp : ∀ c ∈ s.map fromUrlsafe, c ∈ b64alphabet := by
    intro c hc
    obtain ⟨x, hx, rfl⟩ := List.mem_map.1 hc
    exact (urlSafe_alphabet x (h x hx)).2
  obtain ⟨x1, x2, x3⟩ := C71_exact s
  have hpad : ∀ t, Padded s t ↔ t = s.map fromUrlsafe ++ List.replicate (s.length % 4) 61 := by
    intro t
    rw [padded_iff, List.map_append, List.map_replicate]
    rfl
  constructor
  · intro h1
    rw [x3]
    refine ⟨hasc, ?_⟩
    rintro ⟨t, vs, hp, hc⟩
    rw [hpad] at hp
    subst hp
    obtain ⟨a, b, rfl, _, _, hb⟩ := (counts_alpha _ 0 halp (by omega) _).1 hc
    rw [h1, show (0 + (s.map fromUrlsafe).length) % 4 = 1 by simpa using h1] at hb
    generalize hl : List.replicate 1 (61 : UInt8) = l at hb
    have hl : l = [61] := hl.symm
    generalize hq : 1 = q at hb
    cases hb with
    | full => cases hq
    | junk hj _ => cases hl; exact hj.2 rfl
    | char hv _ =>
      cases hl
      have := List.mem_of_getElem? hv
      exact absurd this (by decide)
    | stray _ hb =>
      cases hl
      subst hq
      cases hb
    | stray2 => cases hq
    | pad2 => cases hq
    | pad3 => cases hq
  · intro h1
    have hpads : B64Counts (s.length % 4) (List.replicate (s.length % 4) 61) [] := by
      have : s.length % 4 = 0 ∨ s.length % 4 = 2 ∨ s.length % 4 = 3 := by omega
      rcases this with e | e | e <;> rw [e]
      · exact .full
      · exact .pad2 (j := []) (r := []) (by simp)
      · exact .pad3
    have hv : ∃ a : List Nat, a.length = (s.map fromUrlsafe).length ∧
        List.Forall₂ (fun c v => b64alphabet[v]? = some c) (s.map fromUrlsafe) a := by
      generalize s.map fromUrlsafe = t at halp
      induction t with
      | nil => exact ⟨[], rfl, .nil⟩
      | cons c t ih =>
        obtain ⟨a, i1, i2⟩ := ih (fun x hx => halp x (by simp [hx]))
        obtain ⟨v, hv⟩ := List.getElem?_of_mem (halp c (by simp))
        exact ⟨v :: a, by simp [i1], .cons hv i2⟩
    obtain ⟨a, ha, hf⟩ := hv
    have hc : B64Counts 0 (s.map fromUrlsafe ++ List.replicate (s.length % 4) 61) a :=
      (counts_alpha _ 0 halp (by omega) _).2 ⟨a, [], by simp, ha, hf, by simpa using hpads⟩
    cases hd : urlsafeBase64Decode s with
    | ok d =>
      refine ⟨d, rfl, ?_⟩
      obtain ⟨_, t, vs, p1, p2, p3⟩ := (x1 d).1 hd
      rw [hpad] at p1
      subst p1
      obtain ⟨a', b, rfl, q1, _, q2⟩ := (counts_alpha _ 0 halp (by omega) _).1 p2
      have hb : b = [] := by
        rw [show (0 + (s.map fromUrlsafe).length) % 4 = s.length % 4 by simp] at q2
        have : s.length % 4 = 0 ∨ s.length % 4 = 2 ∨ s.length % 4 = 3 := by omega
        rcases this with e | e | e
        · rw [e] at q2; cases q2; rfl
        · rw [e] at q2
          generalize hl : List.replicate 2 (61 : UInt8) = l at q2
          have hl : l = [61, 61] := hl.symm
          generalize hq : 2 = q at q2
          cases q2 with
          | full => rfl
          | junk hj _ => cases hl; exact absurd rfl hj.2
          | char hv _ =>
            cases hl
            exact absurd (List.mem_of_getElem? hv) (by decide)
          | stray hs _ => omega
          | stray2 hn _ => cases hl; exact absurd ⟨[], [], rfl, by simp⟩ hn
          | pad2 => rfl
          | pad3 => rfl
        · rw [e] at q2
          generalize hl : List.replicate 3 (61 : UInt8) = l at q2
          have hl : l = [61, 61, 61] := hl.symm
          generalize hq : 3 = q at q2
          cases q2 with
          | full => rfl
          | junk hj _ => cases hl; exact absurd rfl hj.2
          | char hv _ =>
            cases hl
            exact absurd (List.mem_of_getElem? hv) (by decide)
          | stray hs _ => omega
          | stray2 => cases hq
          | pad2 => rfl
          | pad3 => rfl
      have := b64Bytes_length p3
      rw [hb] at this
      simp only [List.append_nil, q1, List.length_map] at this
      omega
    | error e =>
      exfalso
      have : e = .typeError ∨ e = .unicodeDecodeError := by
        rcases C71_partial s with ⟨b, hb⟩ | hb | ⟨hb, _⟩ <;> rw [hd] at hb <;> simp at hb <;> simp [hb]
      rcases this with rfl | rfl
      · exact (x3.1 hd).2 ⟨_, a, (hpad _).2 rfl, hc⟩
      · obtain ⟨c, c1, c2⟩ := x2.1 hd
        exact absurd (hasc c c1) (by simpa using c2)

/-- Both cases occur. -/
example : (∀ c ∈ b!"YWJj-", UrlSafe c) ∧ (∀ c ∈ b!"YWJj-_8", UrlSafe c) ∧
    (urlsafeBase64Decode b!"YWJj-_8").toOption = some [97, 98, 99, 251, 255] := by
  refine ⟨?_, ?_, by decide +kernel⟩ <;> (unfold UrlSafe; decide)

end Verif
