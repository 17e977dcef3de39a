import Verif.Model.RequestHead
import Verif.Spec.RequestHead
import Verif.Proofs.Quote
import Verif.Proofs.Chars
import Verif.Proofs.Find
import Mathlib.Data.List.Forall2
/-! Helper lemmas for host names and header blocks. -/

namespace Verif
open Spec

theorem hostChar_iff (c : UInt8) : hostChar c = true ↔ nameByte c := by
  have := forall_u8 (fun c => decide (hostChar c = true ↔ c ∈ b!"abcdefghijklmnopqrstuvwxyz0123456789.-"))
    (by decide +kernel) c
  unfold nameByte
  exact of_decide_eq_true this

theorem hexLower_iff (c : UInt8) : hexLower c = true ↔ hexByte c := by
  have := forall_u8 (fun c => decide (hexLower c = true ↔ c ∈ b!"abcdef0123456789")) (by decide +kernel) c
  unfold hexByte
  exact of_decide_eq_true this

theorem isDigit_iff (c : UInt8) : Py.isDigit c = true ↔ digitByte c := by
  have := forall_u8 (fun c => decide (Py.isDigit c = true ↔ c ∈ b!"0123456789")) (by decide +kernel) c
  unfold digitByte
  exact of_decide_eq_true this

theorem ip6Char_iff (c : UInt8) : ip6Char c = true ↔ (hexByte c ∨ c = 46 ∨ c = 58) := by
  rw [← hexLower_iff]; simp [ip6Char]

theorem portTail_iff (t : Bytes) : portTail t = true ↔
    ∃ p, (∀ c ∈ p, digitByte c) ∧ ((p = [] ∧ t = []) ∨ (p ≠ [] ∧ t = 58 :: p)) := by
  unfold portTail
  split
  · simp
  · rename_i d
    simp only [Bool.and_eq_true, decide_eq_true_eq, List.all_eq_true, isDigit_iff]
    constructor
    · exact fun ⟨h1, h2⟩ => ⟨d, h2, .inr ⟨h1, rfl⟩⟩
    · rintro ⟨p, h1, ⟨_, h⟩ | ⟨h2, h⟩⟩
      · simp at h
      · simp only [List.cons.injEq, true_and] at h; subst h; exact ⟨h2, h1⟩
  · rename_i h1 h2
    simp only [Bool.false_eq_true, false_iff]
    rintro ⟨p, _, ⟨_, h⟩ | ⟨_, h⟩⟩
    · exact h1 h
    · exact h2 p h

theorem takeWhile_app {α : Type} {p : α → Bool} {a b : List α} (ha : ∀ c ∈ a, p c = true)
    (hb : ∀ c, b.head? = some c → p c = false) : (a ++ b).takeWhile p = a ∧ (a ++ b).dropWhile p = b := by
  induction a with
  | nil =>
    cases b with
    | nil => simp
    | cons c t => simp [hb c rfl]
  | cons c t ih =>
    have := ih (fun c hc => ha c (by simp [hc]))
    simp [ha c (by simp), this]

theorem mem_takeWhile {α : Type} {p : α → Bool} {a : List α} {c : α} (h : c ∈ a.takeWhile p) : p c = true :=
  List.all_eq_true.1 (List.all_takeWhile (l := a) (p := p)) c h

theorem hostMatch_iff (s : Bytes) : hostMatch s = true ↔ ∃ d p, HostForm s d p := by
  constructor
  · intro h
    unfold hostMatch at h
    split at h
    · rename_i t
      split at h
      · rename_i u hu
        simp only [Bool.and_eq_true, decide_eq_true_eq] at h
        obtain ⟨h1, h2⟩ := h
        split at h2
        · rename_i r hr
          obtain ⟨p, hp, hc⟩ := (portTail_iff r).1 h2
          have e1 : t = t.takeWhile hexLower ++ 58 :: u := by rw [← hu]; exact (List.takeWhile_append_dropWhile ..).symm
          have e2 : u = u.takeWhile ip6Char ++ 93 :: r := by rw [← hr]; exact (List.takeWhile_append_dropWhile ..).symm
          refine ⟨[91] ++ t.takeWhile hexLower ++ [58] ++ u.takeWhile ip6Char ++ [93], p,
            .inr ⟨_, _, rfl, fun c hc => (hexLower_iff c).1 (mem_takeWhile hc), h1,
              fun c hc => (ip6Char_iff c).1 (mem_takeWhile hc)⟩, hp, ?_⟩
          have e : 91 :: t = [91] ++ t.takeWhile hexLower ++ [58] ++ u.takeWhile ip6Char ++ [93] ++ r := by
            conv_lhs => rw [e1, e2]
            simp
          rcases hc with ⟨h, h'⟩ | ⟨h, h'⟩
          · exact .inl ⟨h, by rw [e, h']; simp⟩
          · exact .inr ⟨h, by rw [e, h']; simp⟩
        · simp at h2
      · simp at h
    · simp only [Bool.and_eq_true, decide_eq_true_eq] at h
      obtain ⟨h1, h2⟩ := h
      obtain ⟨p, hp, hc⟩ := (portTail_iff _).1 h2
      have e := List.takeWhile_append_dropWhile (p := hostChar) (l := s)
      refine ⟨s.takeWhile hostChar, p, .inl ⟨h1, fun c hc => (hostChar_iff c).1 (mem_takeWhile hc)⟩, hp, ?_⟩
      rcases hc with ⟨h, h'⟩ | ⟨h, h'⟩
      · rw [h', List.append_nil] at e; exact .inl ⟨h, e.symm⟩
      · rw [h'] at e; exact .inr ⟨h, by rw [List.append_assoc]; exact e.symm⟩
  · rintro ⟨d, p, hd, hp, hc⟩
    have ht : ∃ t, s = d ++ t ∧ portTail t = true := by
      rcases hc with ⟨h, h'⟩ | ⟨h, h'⟩
      · exact ⟨[], by simp [h'], rfl⟩
      · exact ⟨58 :: p, by simp [h'], (portTail_iff _).2 ⟨p, hp, .inr ⟨h, rfl⟩⟩⟩
    obtain ⟨t, rfl, ht⟩ := ht
    have hth : ∀ c, t.head? = some c → c = 58 := by
      intro c hc
      obtain ⟨p, _, ⟨_, h⟩ | ⟨_, h⟩⟩ := (portTail_iff _).1 ht
      · rw [h] at hc; simp at hc
      · rw [h] at hc; simpa using hc.symm
    rcases hd with ⟨h1, h2⟩ | ⟨h, u, rfl, h1, h2, h3⟩
    · have h91 : ∀ x, d ++ t ≠ 91 :: x := by
        intro x hx
        cases d with
        | nil => exact h1 rfl
        | cons c d =>
          simp only [List.cons_append, List.cons.injEq] at hx
          have := h2 c (by simp)
          rw [hx.1] at this
          revert this; unfold nameByte; decide
      have tw := takeWhile_app (p := hostChar) (a := d) (b := t) (fun c hc => (hostChar_iff c).2 (h2 c hc))
        (fun c hc => by rw [hth c hc]; decide)
      unfold hostMatch
      split
      · rename_i x hx; exact absurd hx (h91 x)
      · rw [tw.1, tw.2, ht]; simp [h1]
    · have e : [91] ++ h ++ [58] ++ u ++ [93] ++ t = 91 :: (h ++ 58 :: (u ++ 93 :: t)) := by simp
      have t1 := takeWhile_app (p := hexLower) (a := h) (b := 58 :: (u ++ 93 :: t))
        (fun c hc => (hexLower_iff c).2 (h1 c hc)) (fun c hc => by
          simp only [List.head?_cons, Option.some.injEq] at hc; subst hc; decide)
      have t2 := takeWhile_app (p := ip6Char) (a := u) (b := 93 :: t)
        (fun c hc => (ip6Char_iff c).2 (h3 c hc)) (fun c hc => by
          simp only [List.head?_cons, Option.some.injEq] at hc; subst hc; decide)
      rw [e]
      simp [hostMatch, t1.2, t2.1, t2.2, h2, ht]

theorem HostName.no_colon {b : Bytes} (h : HostName b) : 58 ∉ b := fun hc => by
  have := h.2 58 hc; revert this; unfold nameByte; decide

theorem digits_no_colon {p : Bytes} (h : ∀ c ∈ p, digitByte c) : 58 ∉ p := fun hc => by
  have := h 58 hc; revert this; unfold digitByte; decide

theorem dot_removed (d : Bytes) : DotRemoved d (if Py.endsWith b!"." d then d.dropLast else d) := by
  unfold Py.endsWith
  split
  · rename_i h
    obtain ⟨t, rfl⟩ := List.isSuffixOf_iff_suffix.1 h
    left; simp
  · rename_i h
    right
    refine ⟨rfl, fun x hx => h ?_⟩
    rw [List.isSuffixOf_iff_suffix]
    exact ⟨x, hx.symm⟩

/-! ## Lines -/

theorem findFrom_line {l : Bytes} (h : Line l) (rest : Bytes) :
    Py.findFrom b!"\r\n" (l ++ [13, 10] ++ rest) 1 = some l.length := by
  obtain ⟨h0, h⟩ := h
  cases l with
  | nil => exact absurd rfl h0
  | cons c l =>
    have hf : Py.find [13, 10] (l ++ [13, 10] ++ rest) = some l.length := by
      refine Py.find_of_decomp fun j hj hp => ?_
      rw [List.drop_append_of_le_length (by simp; omega)] at hp
      have hp2 : ([13, 10] : Bytes) <+: (l ++ [13, 10]).drop j :=
        List.prefix_of_prefix_length_le hp (List.prefix_append _ _) (by simp; omega)
      obtain ⟨b, hb⟩ := hp2
      rcases h (c :: l.take j) b (by
        have e := List.take_append_drop j (l ++ [13, 10])
        rw [← hb, List.take_append_of_le_length (by omega)] at e
        simp only [List.cons_append, ← e, List.append_assoc]) with h | h
      · simp at h
      · have := congrArg List.length h
        simp at this; omega
    unfold Py.findFrom
    rw [if_pos (by simp)]
    simp only [List.cons_append, List.drop_succ_cons, List.drop_zero, hf, Option.map_some, List.length_cons]

theorem findFrom_some {s : Bytes} {e : Nat} (h : Py.findFrom b!"\r\n" s 1 = some e) :
    s = s.take e ++ [13, 10] ++ s.drop (e + 2) ∧ Line (s.take e) := by
  unfold Py.findFrom at h
  split at h
  · rename_i hl
    cases s with
    | nil => simp at hl
    | cons c s =>
      simp only [List.drop_succ_cons, List.drop_zero] at h
      cases hf : Py.find [13, 10] s with
      | none => rw [hf] at h; simp at h
      | some i =>
        rw [hf] at h
        simp only [Option.map_some, Option.some.injEq] at h
        subst h
        have hd := Py.find_decomp hf
        obtain ⟨h1, h2, h3⟩ := Py.find_some.1 hf
        have hlen := Py.find_bound hf
        simp only [List.length_cons, List.length_nil] at hlen
        refine ⟨?_, by simp, fun a b hab => ?_⟩
        · have : i + 1 + 2 = (i + 2) + 1 := by omega
          rw [this, List.take_succ_cons, List.drop_succ_cons]
          simp only [List.cons_append, List.cons.injEq, true_and]
          exact hd
        · cases a with
          | nil => exact .inl rfl
          | cons x a =>
            right
            rw [List.take_succ_cons] at hab ⊢
            simp only [List.cons_append, List.cons.injEq] at hab
            obtain ⟨rfl, hab⟩ := hab
            have hal : a.length ≤ i := by
              have := congrArg List.length hab
              simp at this; omega
            by_cases hlt : a.length < i
            · exfalso
              refine h3 a.length hlt ?_
              have e : s = a ++ [13, 10] ++ b ++ s.drop (i + 2) := by
                rw [← hab]; exact hd
              rw [e]
              simp
            · have : a.length = (s.take i).length := by simp; omega
              rw [List.append_assoc] at hab
              rw [(List.append_inj hab this.symm).1]
  · simp at h

theorem findFrom_none {s : Bytes} : Py.findFrom b!"\r\n" s 1 = none ↔ ∀ a b, s = a ++ [13, 10] ++ b → a = [] := by
  unfold Py.findFrom
  cases s with
  | nil => simp
  | cons c s =>
    rw [if_pos (by simp)]
    simp only [List.drop_succ_cons, List.drop_zero, Option.map_eq_none_iff, Py.find_none_iff_not_infix]
    constructor
    · rintro h a b hab
      cases a with
      | nil => rfl
      | cons x a =>
        simp only [List.cons_append, List.cons.injEq] at hab
        exact absurd ⟨a, b, hab.2.symm⟩ h
    · rintro h ⟨a, b, hab⟩
      have := h (c :: a) b (by rw [← hab]; simp)
      simp at this

theorem Spec.Lines.exists (s : Bytes) : ∃ ls tail, Lines s ls tail := by
  induction hn : s.length using Nat.strong_induction_on generalizing s with
  | _ n ih =>
    cases hf : Py.findFrom b!"\r\n" s 1 with
    | none => exact ⟨[], s, .nil _ (findFrom_none.1 hf)⟩
    | some e =>
      obtain ⟨h1, h2⟩ := findFrom_some hf
      obtain ⟨ls, tail, hl⟩ := ih (s.drop (e + 2)).length (by
        have := congrArg List.length h1
        have h3 : 0 < (s.take e).length := List.length_pos_of_ne_nil h2.1
        simp at this h3 ⊢; omega) _ rfl
      refine ⟨s.take e :: ls, tail, ?_⟩
      rw [h1]
      have := Lines.cons h2 hl
      rw [← h1] at this ⊢
      exact this

/-- The headers of these lines, or the first exception. -/
def readLines : List Bytes → MVD Bytes → Except Exc (MVD Bytes)
  | [], d => .ok d
  | l :: ls, d =>
    match parseHeaderLine l with
    | .error x => .error x
    | .ok (n, v) => readLines ls (d.append n v)

theorem headerLines_lines {s : Bytes} {ls : List Bytes} {tail : Bytes} (h : Lines s ls tail) :
    ∀ fuel d, s.length < fuel → headerLines fuel s d = readLines ls d := by
  induction h with
  | nil tail ht =>
    intro fuel d hf
    obtain ⟨f, rfl⟩ : ∃ f, fuel = f + 1 := ⟨fuel - 1, by omega⟩
    simp [headerLines, readLines, findFrom_none.2 ht]
  | cons hl _ ih =>
    rename_i l block ls tail _
    intro fuel d hf
    obtain ⟨f, rfl⟩ : ∃ f, fuel = f + 1 := ⟨fuel - 1, by omega⟩
    unfold headerLines readLines
    rw [findFrom_line hl]
    have e1 : (l ++ [13, 10] ++ block).take l.length = l := by simp
    have e2 : (l ++ [13, 10] ++ block).drop (l.length + 2) = block := by
      rw [← List.drop_drop]; simp
    simp only [e1, e2]
    cases parseHeaderLine l with
    | error x => rfl
    | ok p => exact ih f _ (by simp at hf; omega)

theorem parseRequestHeaders_lines {s : Bytes} {l : Bytes} {ls : List Bytes} {tail : Bytes} (h : Lines s (l :: ls) tail) :
    parseRequestHeaders s = (match readLines ls [] with
      | .error x => .error x
      | .ok d => if d = [] then .error .invalidHttpRequest else .ok (l, d)) := by
  cases h with
  | cons hl hb =>
    rename_i block
    unfold parseRequestHeaders
    rw [findFrom_line hl]
    have e1 : (l ++ [13, 10] ++ block).take l.length = l := by simp
    have e2 : (l ++ [13, 10] ++ block).drop (l.length + 2) = block := by
      rw [← List.drop_drop]; simp
    simp only [e1, e2]
    rw [headerLines_lines hb _ _ (by simp; omega)]
    rfl

theorem MVD.append_get {α : Type} (d : MVD α) (k k' : Bytes) (v : α) :
    (d.append k v).get? k' = if k = k' then some ((d.get? k).getD [] ++ [v]) else d.get? k' :=
  Dict.get?_set ..

theorem MVD.append_ne {α : Type} (d : MVD α) (k : Bytes) (v : α) : d.append k v ≠ [] := by
  intro h
  have := MVD.append_get d k k v
  rw [h] at this
  simp [Dict.get?] at this

theorem isSpace_iff (c : UInt8) : Py.isSpace c = true ↔ (c ∈ b!" \t\n\r" ∨ c = 11 ∨ c = 12) := by
  have := forall_u8 (fun c => decide (Py.isSpace c = true ↔ (c ∈ b!" \t\n\r" ∨ c = 11 ∨ c = 12))) (by decide +kernel) c
  exact of_decide_eq_true this

theorem dropWhile_app {α : Type} {p : α → Bool} {a b : List α} (ha : ∀ c ∈ a, p c = true)
    (hb : ∀ c, b.head? = some c → p c = false) : (a ++ b).dropWhile p = b := (takeWhile_app ha hb).2

theorem strip_pad {l v r : Bytes} (h : ∀ c ∈ l ++ r, Py.isSpace c = true)
    (hv : ∀ c, v.head? = some c ∨ v.getLast? = some c → Py.isSpace c = false) :
    Py.strip (l ++ v ++ r) = v := by
  unfold Py.strip Py.stripBy
  cases v with
  | nil =>
    have : (l ++ [] ++ r).dropWhile Py.isSpace = [] := by
      rw [List.append_nil]
      have := dropWhile_app (b := []) h (by simp)
      simpa using this
    rw [this]; rfl
  | cons c t =>
    rw [List.append_assoc, dropWhile_app (fun c hc => h c (by simp [hc])) (by
      intro x hx
      exact hv x (.inl (by simpa using hx)))]
    rw [List.reverse_append, dropWhile_app (fun c hc => h c (by simp at hc; simp [hc])) (by
      intro x hx
      refine hv x (.inr ?_)
      rwa [List.head?_reverse] at hx)]
    simp

theorem parseHeaderLine_ok {line n v : Bytes} (h : HeaderLine line n v) : parseHeaderLine line = .ok (n, v) := by
  obtain ⟨h1, h2, h3, l, r, rfl, h4, h5⟩ := h
  have hs : Py.strip (l ++ v ++ r) = v :=
    strip_pad (fun c hc => (isSpace_iff c).2 (h4 c hc)) (fun c hc => by
      have := h5 c hc
      rw [← isSpace_iff] at this
      simpa using this)
  have a1 : Py.isAscii n = true := by simpa [Py.isAscii, Ascii] using h2
  have a2 : Py.isAscii v = true := by simpa [Py.isAscii, Ascii] using h3
  unfold parseHeaderLine
  have e : n ++ [58] ++ l ++ v ++ r = n ++ 58 :: (l ++ v ++ r) := by simp
  rw [e, Py.splitFirst_app h1]
  simp only [hs, a1, a2, Bool.true_eq_false, if_false]

theorem readLines_append (a b : List Bytes) (d : MVD Bytes) :
    readLines (a ++ b) d = (match readLines a d with
      | .error x => .error x
      | .ok d => readLines b d) := by
  induction a generalizing d with
  | nil => rfl
  | cons l a ih =>
    simp only [List.cons_append, readLines]
    cases parseHeaderLine l with
    | error x => rfl
    | ok p => exact ih _

theorem line_of_no_crlf {l : Bytes} (h0 : l ≠ []) (h : ¬ ([13, 10] : Bytes) <:+: l) : Line l := by
  refine ⟨h0, fun a b hab => ?_⟩
  by_cases hl : a.length < l.length
  · exfalso
    obtain ⟨m, rfl⟩ : ∃ m, l = a ++ m := by
      have : a <+: l := List.prefix_of_prefix_length_le ⟨[13, 10] ++ b, by rw [hab]; simp⟩ (List.prefix_append l _) (by omega)
      obtain ⟨m, hm⟩ := this
      exact ⟨m, hm.symm⟩
    simp only [List.append_assoc, List.append_cancel_left_eq] at hab
    match m with
    | [] => simp at hl
    | [x] => simp at hab
    | x :: y :: m =>
      simp only [List.cons_append, List.cons.injEq] at hab
      obtain ⟨rfl, rfl, _⟩ := hab
      exact h ⟨a, m, by simp⟩
  · right
    have hlen : a.length = l.length := by
      have := congrArg List.length hab
      simp at this; omega
    rw [List.append_assoc] at hab
    exact ((List.append_inj hab hlen.symm).1).symm

theorem lines_flat {ls : List Bytes} (h : ∀ l ∈ ls, Line l) : Lines (ls.flatMap (· ++ [13, 10])) ls [] := by
  induction ls with
  | nil => exact .nil _ (by intro a b hab; simp at hab)
  | cons l ls ih =>
    exact .cons (h l (by simp)) (ih fun l hl => h l (by simp [hl]))

theorem readLines_ok {ls : List Bytes} {ps : List (Bytes × Bytes)}
    (h : List.Forall₂ (fun l p => HeaderLine l p.1 p.2) ls ps) (d : MVD Bytes) :
    ∃ d', readLines ls d = .ok d' ∧ (d ≠ [] ∨ ps ≠ [] → d' ≠ []) ∧
      ∀ k, d'.get? k = if k ∈ ps.map Prod.fst then
        some ((d.get? k).getD [] ++ (ps.filter (fun p => p.1 = k)).map Prod.snd) else d.get? k := by
  induction h generalizing d with
  | nil => exact ⟨d, rfl, by simp, by simp⟩
  | cons hl _ ih =>
    rename_i l p ls ps _
    obtain ⟨k0, v⟩ := p
    obtain ⟨d', h1, h2, h3⟩ := ih (d.append k0 v)
    refine ⟨d', ?_, fun _ => h2 (.inl (MVD.append_ne d k0 v)), fun k => ?_⟩
    · unfold readLines; rw [parseHeaderLine_ok hl]; exact h1
    · rw [h3 k, MVD.append_get]
      by_cases hk : k0 = k
      · subst hk
        by_cases h2 : k0 ∈ ps.map Prod.fst
        · simp [h2]
        · have : ps.filter (fun p => decide (p.1 = k0)) = [] := by
            rw [List.filter_eq_nil_iff]
            intro p hp hc
            exact h2 (List.mem_map.2 ⟨p, hp, by simpa using hc⟩)
          simp [h2, this]
      · have hk' : ¬ k = k0 := fun e => hk e.symm
        simp only [hk, if_false, List.map_cons, List.mem_cons, hk', false_or, List.filter_cons, decide_false,
          Bool.false_eq_true]

theorem splitChar_length (c : UInt8) (s : Bytes) : (Py.splitChar c s).length = s.count c + 1 := by
  induction s with
  | nil => rfl
  | cons x t ih =>
    unfold Py.splitChar
    by_cases h : x = c
    · simp [h, ih]
    · simp only [h, if_false]
      have : (Py.splitChar c t) ≠ [] := by
        intro e; rw [e] at ih; simp at ih
      cases hs : Py.splitChar c t with
      | nil => exact absurd hs this
      | cons p ps =>
        rw [hs] at ih
        rw [List.count_cons_of_ne h]
        simpa using ih

end Verif
