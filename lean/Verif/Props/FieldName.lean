import Verif.Props.RequestHead
import Verif.Props.Util
/-!
# Which header blocks are accepted (C36, C140)
-/

namespace Verif
open Spec

/-- The lines that are read as headers are those that are headers, and they are read as what they are. -/
theorem parseHeaderLine_iff (line n v : Bytes) : parseHeaderLine line = .ok (n, v) ↔ HeaderLine line n v := by
  refine ⟨fun h => ?_, parseHeaderLine_ok⟩
  unfold parseHeaderLine at h
  cases hs : Py.splitFirst 58 line with
  | none => rw [hs] at h; cases h
  | some q =>
    obtain ⟨a, b⟩ := q
    rw [hs] at h
    dsimp only at h
    obtain ⟨e, hc⟩ := Py.splitFirst_eq_some hs
    split at h
    · cases h
    · rename_i ha
      split at h
      · cases h
      · rename_i hb
        injection h with h
        injection h with h1 h2
        subst h1 h2
        obtain ⟨l, r, h3, h4, h5⟩ := strip_trimmed b
        refine ⟨hc, ?_, ?_, l, r, ?_, fun c hc => (isSpace_iff c).1 (h4 c hc), fun c hc hw => ?_⟩
        · simpa [Py.isAscii, Ascii] using ha
        · simpa [Py.isAscii, Ascii] using hb
        · rw [e]
          conv_lhs => rw [h3]
          simp
        · have := h5 c hc
          rw [(isSpace_iff c).2 hw] at this
          cases this

theorem parseHeaderLine_error {line : Bytes} {e : Exc} (h : parseHeaderLine line = .error e) :
    (e = .invalidHttpRequest ∧ 58 ∉ line) ∨ (e = .unicodeDecodeError ∧ 58 ∈ line ∧ ¬ Ascii line) := by
  unfold parseHeaderLine at h
  cases hs : Py.splitFirst 58 line with
  | none =>
    rw [hs] at h
    injection h with h
    exact .inl ⟨h.symm, Py.splitFirst_eq_none.1 hs⟩
  | some q =>
    obtain ⟨a, b⟩ := q
    rw [hs] at h
    dsimp only at h
    obtain ⟨rfl, hc⟩ := Py.splitFirst_eq_some hs
    right
    split at h
    · rename_i ha
      injection h with h
      refine ⟨h.symm, by simp, fun hA => ?_⟩
      have : Py.isAscii a = true := by
        simp only [Py.isAscii, List.all_eq_true, decide_eq_true_eq]
        exact fun c hc => hA c (by simp [hc])
      rw [this] at ha; cases ha
    · split at h
      · rename_i hb
        injection h with h
        refine ⟨h.symm, by simp, fun hA => ?_⟩
        have : Py.isAscii (Py.strip b) = true := by
          simp only [Py.isAscii, List.all_eq_true, decide_eq_true_eq]
          intro c hc
          obtain ⟨l, r, h3, _, _⟩ := strip_trimmed b
          exact hA c (by rw [h3]; simp [hc])
        rw [this] at hb; cases hb
      · cases h

theorem readLines_exact {ls : List Bytes} {d d' : MVD Bytes} (h : readLines ls d = .ok d') :
    ∃ ps : List (Bytes × Bytes), List.Forall₂ (fun l p => HeaderLine l p.1 p.2) ls ps := by
  induction ls generalizing d with
  | nil => exact ⟨[], .nil⟩
  | cons l ls ih =>
    unfold readLines at h
    cases hl : parseHeaderLine l with
    | error x => rw [hl] at h; cases h
    | ok p =>
      rw [hl] at h
      obtain ⟨ps, hps⟩ := ih h
      exact ⟨p :: ps, .cons ((parseHeaderLine_iff _ _ _).1 hl) hps⟩

theorem readLines_error {ls : List Bytes} {d : MVD Bytes} {e : Exc} (h : readLines ls d = .error e) :
    ∃ good bad rest, ∃ ps : List (Bytes × Bytes), ls = good ++ bad :: rest ∧
      List.Forall₂ (fun l p => HeaderLine l p.1 p.2) good ps ∧
      ((e = .invalidHttpRequest ∧ 58 ∉ bad) ∨ (e = .unicodeDecodeError ∧ 58 ∈ bad ∧ ¬ Ascii bad)) := by
  induction ls generalizing d with
  | nil => cases h
  | cons l ls ih =>
    unfold readLines at h
    cases hl : parseHeaderLine l with
    | error x =>
      rw [hl] at h
      injection h with h
      subst h
      exact ⟨[], l, ls, [], rfl, .nil, parseHeaderLine_error hl⟩
    | ok p =>
      rw [hl] at h
      obtain ⟨good, bad, rest, ps, rfl, hg, hb⟩ := ih h
      exact ⟨l :: good, bad, rest, p :: ps, rfl, .cons ((parseHeaderLine_iff _ _ _).1 hl) hg, hb⟩

/-- **C36, exactly**: the header block is accepted if and only if it is a first line followed by at least one header line, all
of them correct (and perhaps a rest in which no line ends); and then the headers are those of the lines, all values of each
name in order.  Otherwise `InvalidHttpRequest` is raised, or `UnicodeDecodeError` if the first wrong line has a colon and a
byte outside ASCII. -/
theorem C36_exact (s : Bytes) :
    (∀ line, ∀ d : MVD Bytes, parseRequestHeaders s = .ok (line, d) →
      ∃ ls tail, ∃ ps : List (Bytes × Bytes), Lines s (line :: ls) tail ∧ ls ≠ [] ∧
        List.Forall₂ (fun l p => HeaderLine l p.1 p.2) ls ps ∧
        ∀ k, d.get? k = if k ∈ ps.map Prod.fst then some ((ps.filter (fun p => p.1 = k)).map Prod.snd) else none) ∧
    (∀ line ls tail, ∀ ps : List (Bytes × Bytes), Lines s (line :: ls) tail → ls ≠ [] →
      List.Forall₂ (fun l p => HeaderLine l p.1 p.2) ls ps → ∃ d, parseRequestHeaders s = .ok (line, d)) ∧
    (∀ e, parseRequestHeaders s = .error e → e = .invalidHttpRequest ∨
      (e = .unicodeDecodeError ∧ ∃ line good bad rest tail, ∃ ps : List (Bytes × Bytes),
        Lines s (line :: good ++ bad :: rest) tail ∧ List.Forall₂ (fun l p => HeaderLine l p.1 p.2) good ps ∧ 58 ∈ bad ∧
        ¬ Ascii bad)) := by
  refine ⟨?_, ?_, ?_⟩
  · intro line d h
    obtain ⟨ls, tail, hL⟩ := Lines.exists s
    cases ls with
    | nil =>
      cases hL with
      | nil _ ht => simp [parseRequestHeaders, findFrom_none.2 ht] at h
    | cons l hs =>
      rw [parseRequestHeaders_lines hL] at h
      cases hr : readLines hs [] with
      | error x => rw [hr] at h; cases h
      | ok d' =>
        rw [hr] at h
        dsimp only at h
        split at h
        · cases h
        · rename_i hne
          injection h with h
          injection h with h1 h2
          subst h1 h2
          obtain ⟨ps, hps⟩ := readLines_exact hr
          obtain ⟨d2, g1, _, g3⟩ := readLines_ok hps []
          rw [hr] at g1
          injection g1 with g1
          subst g1
          refine ⟨hs, tail, ps, hL, ?_, hps, fun k => ?_⟩
          · rintro rfl
            injection hr with hr
            exact hne hr.symm
          · rw [g3 k]
            simp [Dict.get?]
  · intro line ls tail ps hL hne hps
    obtain ⟨d, h1, h2, _⟩ := readLines_ok hps []
    refine ⟨d, ?_⟩
    rw [parseRequestHeaders_lines hL, h1]
    simp only [h2 (.inr (by rintro rfl; cases hps; exact hne rfl)), if_false]
  · intro e h
    obtain ⟨ls, tail, hL⟩ := Lines.exists s
    cases ls with
    | nil =>
      cases hL with
      | nil _ ht =>
        simp only [parseRequestHeaders, findFrom_none.2 ht] at h
        injection h with h
        exact .inl h.symm
    | cons l hs =>
      rw [parseRequestHeaders_lines hL] at h
      cases hr : readLines hs [] with
      | error x =>
        rw [hr] at h
        injection h with h
        subst h
        obtain ⟨good, bad, rest, ps, rfl, hg, hb⟩ := readLines_error hr
        rcases hb with ⟨hb, _⟩ | ⟨hb, hb1, hb2⟩
        · exact .inl hb
        · exact .inr ⟨hb, l, good, bad, rest, tail, ps, hL, hg, hb1, hb2⟩
      | ok d' =>
        rw [hr] at h
        dsimp only at h
        split at h
        · injection h with h
          exact .inl h.symm
        · cases h

namespace Spec

/-- The characters of a header name (RFC 7230, 3.2.6). -/
def tokenByte (c : UInt8) : Prop :=
  c ∈ b!"abcdefghijklmnopqrstuvwxyzABCDEFGHIJKLMNOPQRSTUVWXYZ0123456789!#$%&'*+-.^_`|~"

/-- A header name. -/
def Token (n : Bytes) : Prop := n ≠ [] ∧ ∀ c ∈ n, tokenByte c

end Spec

/-- **C140, what is left of it**: the names of the headers that are handed out are ASCII and have no colon in them, and the
values are ASCII and do not begin or end with white space; every name has a value. -/
theorem C140_partial {s line : Bytes} {d : MVD Bytes} (h : parseRequestHeaders s = .ok (line, d)) {k : Bytes}
    {vs : List Bytes} (hk : d.get? k = some vs) :
    58 ∉ k ∧ Ascii k ∧ vs ≠ [] ∧ ∀ v ∈ vs, Ascii v ∧
      ∀ c, v.head? = some c ∨ v.getLast? = some c → ¬ (c ∈ b!" \t\n\r" ∨ c = 11 ∨ c = 12) := by
  obtain ⟨ls, tail, ps, hL, hne, hps, hd⟩ := (C36_exact s).1 line d h
  clear hL hne
  rw [hd k] at hk
  split at hk
  · rename_i hm
    injection hk with hk
    subst hk
    have hall : ∀ p ∈ ps, ∃ l, HeaderLine l p.1 p.2 := by
      clear hd hm h
      induction hps with
      | nil => simp
      | cons hl _ ih =>
        intro p hp
        rcases List.mem_cons.1 hp with rfl | hp
        · exact ⟨_, hl⟩
        · exact ih p hp
    obtain ⟨p, hp, rfl⟩ := List.mem_map.1 hm
    obtain ⟨l, h1, h2, _⟩ := hall p hp
    refine ⟨h1, h2, ?_, ?_⟩
    · intro e
      have : p.2 ∈ (ps.filter (fun q => decide (q.1 = p.1))).map Prod.snd :=
        List.mem_map.2 ⟨p, List.mem_filter.2 ⟨hp, by simp⟩, rfl⟩
      rw [e] at this
      cases this
    · intro v hv
      obtain ⟨q, hq, rfl⟩ := List.mem_map.1 hv
      obtain ⟨l', _, _, h3, _, _, _, _, h5⟩ := hall q (List.mem_filter.1 hq).1
      exact ⟨h3, h5⟩
  · cases hk

/-- **C140 is false of the code for every name**: whatever ASCII bytes other than a colon and CRLF stand before
the colon, also none at all, white space before the colon, or a line that goes on from the one before, the line is accepted
as a header with this name. -/
theorem C140_any (line n v : Bytes) (h0 : line ≠ []) (hl : ¬ ([13, 10] : Bytes) <:+: line)
    (hn : ∀ c ∈ n, c < 128 ∧ c ≠ 58 ∧ c ≠ 13) (hv : ∀ c ∈ v, c < 128 ∧ ¬ (c ∈ b!" \t\n\r" ∨ c = 11 ∨ c = 12)) :
    ∃ d, parseRequestHeaders (line ++ b!"\r\n" ++ n ++ b!": " ++ v ++ b!"\r\n") = .ok (line, d) ∧
      d.get? n = some [v] := by
  have hln : HeaderLine (n ++ b!": " ++ v) n v := by
    refine ⟨fun h => (hn _ h).2.1 rfl, fun c hc => (hn c hc).1, fun c hc => (hv c hc).1, b!" ", [], by simp, by decide, ?_⟩
    rintro c (hc | hc)
    · exact (hv c (List.mem_of_head? hc)).2
    · exact (hv c (List.mem_of_getLast? hc)).2
  obtain ⟨d, h1, h2⟩ := C35_roundtrip line [n ++ b!": " ++ v] [(n, v)] (by simp) h0 (by
    intro l hm
    simp only [List.mem_cons, List.not_mem_nil, or_false] at hm
    rcases hm with rfl | rfl
    · exact hl
    · intro hi
      have : (13 : UInt8) ∈ n ++ b!": " ++ v := hi.subset (by simp)
      simp only [List.mem_append] at this
      rcases this with (h | h) | h
      · exact (hn _ h).2.2 rfl
      · revert h; decide
      · exact (hv _ h).2 (.inl (by decide))) (.cons hln .nil)
  refine ⟨d, ?_, ?_⟩
  · rw [← h1]
    congr 1
    simp
  · rw [h2 n]
    simp

/-- **C140 is false of the code**: a name with a space at its end, one with a space in front (a line that goes on from the
line before), and no name at all. -/
theorem C140_refuted : ∀ n ∈ [b!"Host ", b!" b", b!""], ¬ Token n ∧
    ∃ d, parseRequestHeaders (b!"GET / HTTP/1.1\r\n" ++ n ++ b!": a\r\n") = .ok (b!"GET / HTTP/1.1", d) ∧
      d.get? n = some [b!"a"] := by
  intro n hn
  have h1 : (∀ c ∈ n, c < 128 ∧ c ≠ 58 ∧ c ≠ 13) ∧ ¬ Token n := by
    simp only [List.mem_cons, List.not_mem_nil, or_false] at hn
    rcases hn with rfl | rfl | rfl
    · exact ⟨by decide +kernel, fun h => absurd (h.2 32 (by decide)) (by unfold tokenByte; decide +kernel)⟩
    · exact ⟨by decide +kernel, fun h => absurd (h.2 32 (by decide)) (by unfold tokenByte; decide +kernel)⟩
    · exact ⟨by simp, fun h => h.1 rfl⟩
  refine ⟨h1.2, ?_⟩
  obtain ⟨d, h2, h3⟩ := C140_any b!"GET / HTTP/1.1" n b!"a" (by decide) (by decide) h1.1 (by decide +kernel)
  refine ⟨d, ?_, h3⟩
  rw [← h2]
  congr 1
  simp

/-- A block with two values of one name. -/
example : ∃ d, parseRequestHeaders b!"L\r\nA: 1\r\nB:2 \r\nA:\t3\r\n" = .ok (b!"L", d) ∧ d.get? b!"A" = some [b!"1", b!"3"] :=
  ⟨[(b!"A", [b!"1", b!"3"]), (b!"B", [b!"2"])], by decide +kernel, by decide +kernel⟩

example : 58 ∉ (b!"B" : Bytes) ∧ Ascii b!"B" ∧ [b!"2"] ≠ [] ∧ ∀ v ∈ [b!"2"], Ascii v ∧
    ∀ c, v.head? = some c ∨ v.getLast? = some c → ¬ (c ∈ b!" \t\n\r" ∨ c = 11 ∨ c = 12) :=
  C140_partial (s := b!"L\r\nA: 1\r\nB:2 \r\nA:\t3\r\n") (line := b!"L")
    (d := [(b!"A", [b!"1", b!"3"]), (b!"B", [b!"2"])]) (by decide +kernel) (by decide +kernel)

/-- Both exceptions. -/
example : parseRequestHeaders b!"L\r\nA: 1\r\nB\r\n" = .error .invalidHttpRequest ∧
    parseRequestHeaders (b!"L\r\nA: 1\r\nB:" ++ [200] ++ b!"\r\n") = .error .unicodeDecodeError := ⟨rfl, rfl⟩

end Verif
