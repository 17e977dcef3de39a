import Verif.Proofs.RequestHead
/-!
# C35-C37: header blocks and host names
-/

namespace Verif
open Spec

/-! ## C35: headers round-trip -/

/-- **C35** Write down a request line and headers, each followed by CRLF, with any white space
around the values: parsing gives the request line back and, for every name, all its values in
order. -/
theorem C35_roundtrip (line : Bytes) (ls : List Bytes) (ps : List (Bytes × Bytes)) (hne : ps ≠ [])
    (h0 : line ≠ []) (hcrlf : ∀ l ∈ line :: ls, ¬ ([13, 10] : Bytes) <:+: l)
    (h : List.Forall₂ (fun l p => HeaderLine l p.1 p.2) ls ps) :
    ∃ d, parseRequestHeaders ((line :: ls).flatMap (· ++ [13, 10])) = .ok (line, d) ∧
      ∀ k, d.get? k = if k ∈ ps.map Prod.fst then some ((ps.filter (fun p => p.1 = k)).map Prod.snd) else none := by
  have hl : ∀ l ∈ line :: ls, Line l := by
    intro l hm
    refine line_of_no_crlf ?_ (hcrlf l hm)
    rcases List.mem_cons.1 hm with rfl | hm
    · exact h0
    · rintro rfl
      obtain ⟨p, _, hp⟩ : ∃ p, p ∈ ps ∧ HeaderLine [] p.1 p.2 := by
        clear hcrlf hne
        rename_i hm0
        clear hm0
        induction h with
        | nil => simp at hm
        | cons hh _ ih =>
          rcases List.mem_cons.1 hm with rfl | hm
          · exact ⟨_, by simp, hh⟩
          · obtain ⟨p, h1, h2⟩ := ih hm
            exact ⟨p, by simp [h1], h2⟩
      obtain ⟨_, _, _, l, r, e, _⟩ := hp
      simp at e
  rw [parseRequestHeaders_lines (lines_flat hl)]
  obtain ⟨d, h1, h2, h3⟩ := readLines_ok h []
  refine ⟨d, ?_, fun k => ?_⟩
  · rw [h1]; simp [h2 (.inr hne)]
  · rw [h3 k]; simp [Dict.get?]

example : HeaderLine b!"Accept:\t a/b " b!"Accept" b!"a/b" :=
  ⟨by decide, by unfold Ascii; decide, by unfold Ascii; decide, b!"\t ", b!" ", rfl, by decide, by
    rintro c (h | h) <;> · simp at h; subst h; decide⟩

example : (parseRequestHeaders b!"GET / HTTP/1.1\r\nHost: a\r\nX:1\r\nX: 2 \r\n").toOption =
    some (b!"GET / HTTP/1.1", [(b!"Host", [b!"a"]), (b!"X", [b!"1", b!"2"])]) := by decide +kernel

/-! ## C36: malformed blocks -/

/-- **C36** Every block is either without the end of a first line, or it is a sequence of lines and
a rest.  Without the end of a first line, without header lines, or with a header line without colon
(after correct ones) `InvalidHttpRequest` is raised.  If all header lines are correct, there is at
least one, and parsing succeeds. -/
theorem C36_block (s : Bytes) :
    ∃ ls tail, Lines s ls tail ∧
      (ls = [] → parseRequestHeaders s = .error .invalidHttpRequest) ∧
      ∀ l hs, ls = l :: hs →
        (hs = [] → parseRequestHeaders s = .error .invalidHttpRequest) ∧
        (∀ good bad rest (ps : List (Bytes × Bytes)), hs = good ++ bad :: rest →
          List.Forall₂ (fun l p => HeaderLine l p.1 p.2) good ps → 58 ∉ bad →
          parseRequestHeaders s = .error .invalidHttpRequest) ∧
        (∀ ps : List (Bytes × Bytes), List.Forall₂ (fun l p => HeaderLine l p.1 p.2) hs ps → hs ≠ [] →
          ∃ d, parseRequestHeaders s = .ok (l, d)) := by
  obtain ⟨ls, tail, h⟩ := Lines.exists s
  refine ⟨ls, tail, h, ?_, ?_⟩
  · rintro rfl
    cases h with
    | nil _ ht => simp [parseRequestHeaders, findFrom_none.2 ht]
  · rintro l hs rfl
    rw [parseRequestHeaders_lines h]
    refine ⟨?_, ?_, ?_⟩
    · rintro rfl; rfl
    · rintro good bad rest ps rfl hg hb
      obtain ⟨d, h1, _, _⟩ := readLines_ok hg []
      rw [readLines_append, h1]
      simp [readLines, parseHeaderLine, Py.splitFirst_eq_none.2 hb]
    · intro ps hg hne
      obtain ⟨d, h1, h2, _⟩ := readLines_ok hg []
      refine ⟨d, ?_⟩
      rw [h1]
      simp only [h2 (.inr (by rintro rfl; cases hg; exact hne rfl)), if_false]

theorem urlSplit_error {u : UStr} {e : Exc} (h : urlSplit u = .error e) : e = .valueError := by
  unfold urlSplit at h
  dsimp only at h
  generalize (if (splitScheme u).2.take 2 = [47, 47] then splitNetloc (splitScheme u).2
    else ([], (splitScheme u).2)) = nl at h
  split at h
  · simp only [Except.error.injEq] at h; exact h.symm
  · simp at h

/-- **C36** The request line has exactly three pieces, i.e. two spaces; then nothing but the URL
decides, and `InvalidHttpRequest` is not raised. -/
theorem C36_request_line (up : List UStr) (line : Bytes) :
    (line.count 32 ≠ 2 → parseRequestLine up line = .error .invalidHttpRequest) ∧
    (line.count 32 = 2 → parseRequestLine up line ≠ .error .invalidHttpRequest) := by
  have hl := splitChar_length 32 line
  unfold parseRequestLine
  constructor
  · intro h
    split
    · rename_i he; rw [he] at hl; simp at hl; omega
    · rfl
  · intro h
    split
    · rename_i he
      have hu : ∀ u, urlParseStr up u ≠ .error .invalidHttpRequest := by
        intro u
        unfold urlParseStr urlParse
        split
        · cases hx : urlSplit (Py.toU u) with
          | error e => simp [urlSplit_error hx]
          | ok v => simp
        · simp
      split
      · rename_i e hx
        intro h
        simp only [Except.error.injEq] at h
        exact hu _ (h ▸ hx)
      · simp
    · rename_i he
      exfalso
      match hs : Py.splitChar 32 line with
      | [a, b, c] => exact he a b c hs
      | [] => rw [hs] at hl; simp at hl
      | [_] => rw [hs] at hl; simp at hl; omega
      | [_, _] => rw [hs] at hl; simp at hl; omega
      | _ :: _ :: _ :: _ :: _ => rw [hs] at hl; simp at hl; omega

example : Lines b!"GET / HTTP/1.1\r\nHost: a\r\nnonsense\r\n" [b!"GET / HTTP/1.1", b!"Host: a", b!"nonsense"] [] ∧
    HeaderLine b!"Host: a" b!"Host" b!"a" :=
  ⟨by
    have h := lines_flat (ls := [b!"GET / HTTP/1.1", b!"Host: a", b!"nonsense"]) (by
      intro l hl
      refine line_of_no_crlf ?_ ?_
      · rintro rfl; revert hl; decide
      · revert l; decide)
    exact h,
    by decide, by unfold Ascii; decide, by unfold Ascii; decide, b!" ", [], rfl, by decide, by
    rintro c (h | h) <;> · simp at h; subst h; decide⟩

/-- The result line by line: the request line must have three pieces (concrete values). -/
example : (parseRequestLine [] b!"GET http://h:1/p?q=1 HTTP/1.1").toOption =
    some { method := b!"GET", scheme := b!"http", domain := b!"h:1", path := b!"/p", params := [],
           query := b!"q=1", fragment := [], proto := b!"HTTP/1.1" } := by decide +kernel

/-! ## C37: hosts -/

/-- **C37** For a host text that does not end in a line feed: the answer is `('', '')` unless the
lower-cased host is a domain with an optional port; then the answer is the domain, without its
trailing dot if there is one, and the port. -/
theorem C37_partial (host : Bytes) (hlf : host.getLast? ≠ some 10) :
    ((¬ ∃ d p, HostForm (Py.lower host) d p) → splitDomainPort host = ([], [])) ∧
    ∀ d p, HostForm (Py.lower host) d p →
      DotRemoved d (splitDomainPort host).1 ∧ (splitDomainPort host).2 = p := by
  have hlast : (Py.lower host).getLast? ≠ some 10 := by
    unfold Py.lower
    rw [List.getLast?_map]
    intro h
    cases hg : host.getLast? with
    | none => rw [hg] at h; simp at h
    | some c =>
      rw [hg] at h hlf
      have := forall_u8 (fun c => !decide (Py.lowerByte c = 10) || decide (c = 10)) (by decide +kernel) c
      simp only [Option.map_some, Option.some.injEq] at h
      simp [h] at this
      exact hlf (by rw [this])
  have hv : hostValid (Py.lower host) = hostMatch (Py.lower host) := by
    simp [hostValid, hlast]
  unfold splitDomainPort
  dsimp only
  rw [hv]
  generalize Py.lower host = s at *
  constructor
  · intro h
    rw [← hostMatch_iff] at h
    rw [if_pos (by simpa using h)]
  · rintro d p hf
    have hm := (hostMatch_iff s).2 ⟨d, p, hf⟩
    rw [if_neg (by simp [hm])]
    obtain ⟨hd, hp, hs⟩ := hf
    rcases hs with ⟨rfl, rfl⟩ | ⟨hpn, rfl⟩
    · rcases hd with hd | ⟨h, t, rfl, _⟩
      · rw [if_neg (by
          intro hl
          have := hd.2 93 (List.mem_of_getLast? hl)
          revert this; unfold nameByte; decide)]
        have : Py.rsplitLast 58 s = none := by
          simp [Py.rsplitLast, Py.rfindChar_eq_none.2 (HostName.no_colon hd)]
        rw [this]
        exact ⟨dot_removed s, rfl⟩
      · rw [if_pos (by rw [List.getLast?_append]; rfl)]
        refine ⟨.inr ⟨rfl, fun x hx => ?_⟩, rfl⟩
        have := congrArg List.getLast? hx
        rw [List.getLast?_append, List.getLast?_append] at this
        simp at this
    · rw [if_neg (by
        intro hl
        rw [List.getLast?_append_of_ne_nil _ hpn] at hl
        have := hp 93 (List.mem_of_getLast? hl)
        revert this; unfold digitByte; decide)]
      have e : d ++ [58] ++ p = d ++ 58 :: p := by simp
      have : Py.rsplitLast 58 (d ++ [58] ++ p) = some (d, p) := by
        rw [e]
        simp [Py.rsplitLast, Py.rfindChar_app (digits_no_colon hp)]
      rw [this]
      exact ⟨dot_removed d, rfl⟩

/-- **C37** is false of the code for a host that ends in a line feed: `$` of the regular expression
matches before it, and the line feed becomes part of the port (or of the domain).  Such a host can
come from the URL of the request line. -/
theorem C37_refuted : splitDomainPort b!"a:80\n" = (b!"a", b!"80\n") ∧
    splitDomainPort b!"[::1]\n" = (b!"[:", b!"1]\n") ∧ splitDomainPort b!"a\n" = (b!"a\n", []) ∧
    (parseRequestLine [] b!"GET http://a:80\n/ HTTP/1.1").toOption.map ReqLine.domain = some b!"a:80\n" := by
  decide +kernel

example : splitDomainPort b!"Example.COM.:8080" = (b!"example.com", b!"8080") ∧
    splitDomainPort b!"[2001:DB8::1]:443" = (b!"[2001:db8::1]", b!"443") ∧
    splitDomainPort b!"a b" = ([], []) := by decide +kernel

end Verif
