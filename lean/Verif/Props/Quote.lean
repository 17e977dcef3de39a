import Verif.Proofs.Quote
/-!
# C54-C56: URIs and IRIs
-/

namespace Verif
open Spec

theorem iriKeeps_iff (c : UInt8) : quoteKeeps iriSafe c ↔ uriChar c = true := by
  have := forall_u8 (fun c => decide (quoteKeeps iriSafe c ↔ uriChar c = true)) (by decide +kernel) c
  exact of_decide_eq_true this

/-- **C54** On every byte string `iri_to_uri` succeeds with URI characters only (so ASCII), leaves
URI text unchanged and is idempotent (also when its result is passed on as the `unicode` it is). -/
theorem C54_iri_to_uri (s : Bytes) :
    ∃ t, iriToUri (.b s) = .ok t ∧ (∀ c ∈ t, uriChar c = true ∧ c < 128) ∧
      ((∀ c ∈ s, uriChar c = true) → t = s) ∧
      iriToUri (.b t) = .ok t ∧ iriToUri (.u (Py.toU t)) = .ok t := by
  refine ⟨quoteBytes iriSafe s, rfl, fun c hc => ⟨?_, quoteBytes_ascii _ _ c hc⟩, fun h => ?_, ?_, ?_⟩
  · rcases quoteBytes_chars iriSafe s c hc with h | rfl
    · exact (iriKeeps_iff c).1 h
    · decide
  · exact quoteBytes_id fun c hc => (iriKeeps_iff c).2 (h c hc)
  · exact congrArg Except.ok (quoteBytes_idem (by decide) s)
  · unfold iriToUri
    have : ((Py.toU (quoteBytes iriSafe s)).all (· < 128)) = true :=
      List.all_eq_true.2 fun n hn => by simpa using toU_lt (quoteBytes_ascii _ _) n hn
    simp only [this, if_true, toU_ofNat, quoteBytes_idem (safe := iriSafe) (by decide)]

/-- **C54** for `unicode`: ASCII text is treated as its bytes; anything else raises
`UnicodeEncodeError` (from `str(iri)`), although the documentation promises percent-encoding. -/
theorem C54_unicode (s : UStr) :
    (∀ b : Bytes, s = Py.toU b → (∀ c ∈ b, c < 128) → iriToUri (.u s) = iriToUri (.b b)) ∧
    ((∃ n ∈ s, 128 ≤ n) → iriToUri (.u s) = .error .unicodeEncodeError) := by
  constructor
  · rintro b rfl hb
    unfold iriToUri
    have : ((Py.toU b).all (· < 128)) = true :=
      List.all_eq_true.2 fun n hn => by simpa using toU_lt hb n hn
    simp only [this, if_true, toU_ofNat]
  · rintro ⟨n, hn, h⟩
    unfold iriToUri
    have : (s.all (· < 128)) = false := by
      simp only [List.all_eq_false, decide_eq_true_eq, not_lt]
      exact ⟨n, hn, h⟩
    simp [this]

example : (iriToUri (.b [47, 73, 32, 226, 153, 165, 32, 37, 50, 48])).toOption =
    some b!"/I%20%E2%99%A5%20%20" := by decide +kernel

/-- **C55** `uri_to_iri` undoes `iri_to_uri` on every byte string without `%` that is UTF-8 text:
decoding gives some text `u` and encoding `u` gives the bytes back.  (`hascii`: ASCII text encodes
as itself in UTF-8.) -/
theorem C55_iri_roundtrip (C : Codecs) (hascii : ∀ b : Bytes, (∀ c ∈ b, c < 128) →
      C.encode b!"utf-8" (Py.toU b) = .ok b)
    (x : Bytes) (h37 : 37 ∉ x) (u : UStr) (hd : C.decodeReplace b!"utf-8" x = .ok u)
    (he : C.encode b!"utf-8" u = .ok x) (t : Bytes) (ht : iriToUri (.b x) = .ok t) :
    uriToIri C (Py.toU t) = .ok x := by
  simp only [iriToUri, Except.ok.injEq] at ht
  subst ht
  have hp : Pct (quoteBytes iriSafe x) x := quoteBytes_pct (.inr h37)
  unfold uriToIri
  rw [unquoteU_ascii C _ _ (quoteBytes_ascii _ _)]
  split
  · rename_i h0
    have : quoteBytes iriSafe x = [] := by simpa [Py.toU] using h0
    rw [this] at hp
    cases hp; rfl
  · by_cases hm : (37 : UInt8) ∈ quoteBytes iriSafe x
    · rw [if_pos hm, hp.unquote, hd]; exact he
    · rw [if_neg hm]
      have e := hp.eq_of_no_pct hm
      have ha := quoteBytes_ascii iriSafe x
      rw [e] at ha ⊢
      exact hascii x ha

/-- **C55** percent-decoding undoes `escape_uri_path` with `encode_percent=True`, for every byte
string; and the `unquote` of the library decodes the result to what the bytes decode to. -/
theorem C55_escape_roundtrip (C : Codecs) (s t : Bytes) (h : escapeUriPath C (.b s) true = .ok t) :
    unquoteToBytes t = s := by
  simp only [escapeUriPath, if_true, Except.ok.injEq] at h
  subst h
  exact (quoteBytes_pct (.inl (by decide))).unquote

/-- `encode_percent=False` leaves existing escapes alone and is not injective. -/
theorem C55_not_injective : ∃ (C : Codecs) (s s' : Bytes), s ≠ s' ∧
    escapeUriPath C (.b s) false = escapeUriPath C (.b s') false :=
  ⟨⟨fun _ _ => .ok [], fun _ _ => .ok [], fun _ b => .ok b, fun _ _ => .ok []⟩, b!" ", b!"%20",
    by decide, congrArg Except.ok (by decide +kernel)⟩

/-- A codec for the examples: every encoding name stands for Latin-1. -/
def latin1 : Codecs where
  decodeReplace _ b := .ok (Py.toU b)
  decode _ b := .ok (Py.toU b)
  strEncode _ b := .ok b
  encode _ u := if u.all (· < 256) then .ok (u.map UInt8.ofNat) else .error .unicodeEncodeError

example : ∀ b : Bytes, (∀ c ∈ b, c < 128) → latin1.encode b!"utf-8" (Py.toU b) = .ok b := by
  intro b _
  have : (Py.toU b).all (· < 256) = true := by
    simp only [Py.toU, List.all_map, List.all_eq_true]
    intro x _
    simpa using x.toNat_lt
  simp only [latin1, this, if_true, toU_ofNat]

example : latin1.decodeReplace b!"utf-8" [233, 32] = .ok [233, 32] ∧
    (iriToUri (.b [233, 32])).toOption = some b!"%E9%20" ∧
    (uriToIri latin1 (Py.toU b!"%E9%20")).toOption = some [233, 32] :=
  ⟨rfl, by decide +kernel, by decide +kernel⟩

theorem pathKeeps_uri {c : UInt8} (h : quoteKeeps pathSafePct c) : uriChar c = true := by
  have := forall_u8 (fun c => !decide (quoteKeeps pathSafePct c) || uriChar c) (by decide +kernel) c
  simpa [h] using this

theorem escapeUriPath_chars (C : Codecs) (p : PyStr) (t : Bytes) (h : escapeUriPath C p false = .ok t) :
    ∀ c ∈ t, quoteKeeps pathSafePct c := by
  have key : ∀ s : Bytes, ∀ c ∈ quoteBytes pathSafePct s, quoteKeeps pathSafePct c := by
    intro s c hc
    rcases quoteBytes_chars _ s c hc with h' | rfl
    · exact h'
    · decide
  unfold escapeUriPath at h
  cases p with
  | b s =>
    simp only [Bool.false_eq_true, if_false, Except.ok.injEq] at h
    subst h; exact key s
  | u s =>
    dsimp only at h
    cases he : C.encode b!"utf-8" s with
    | error e => rw [he] at h; simp at h
    | ok b =>
      rw [he] at h
      simp only [Bool.false_eq_true, if_false, Except.ok.injEq] at h
      subst h; exact key b

theorem iriToUri_chars (q : PyStr) (t : Bytes) (h : iriToUri q = .ok t) : ∀ c ∈ t, uriChar c = true := by
  have key : ∀ s : Bytes, ∀ c ∈ quoteBytes iriSafe s, uriChar c = true := by
    intro s c hc
    rcases quoteBytes_chars _ s c hc with h' | rfl
    · exact (iriKeeps_iff c).1 h'
    · decide
  unfold iriToUri at h
  cases q with
  | b s =>
    simp only [Except.ok.injEq] at h
    subst h; exact key s
  | u s =>
    dsimp only at h
    split at h
    · simp only [Except.ok.injEq] at h
      subst h; exact key _
    · simp at h

theorem fullPath_chars (C : Codecs) (p q : PyStr) (fs : Bool) (t : Bytes) (h : fullPath C p q fs = .ok t) :
    ∀ c ∈ t, uriChar c = true := by
  unfold fullPath at h
  cases hp : escapeUriPath C p false with
  | error e => rw [hp] at h; simp at h
  | ok a =>
    have ha := fun c hc => pathKeeps_uri (escapeUriPath_chars C p a hp c hc)
    rw [hp] at h
    dsimp only at h
    have hs : ∀ c ∈ (if fs && !p.endsSlash then b!"/" else []), uriChar c = true := by
      intro c hc
      split at hc
      · simp at hc; subst hc; decide
      · simp at hc
    generalize (if fs && !p.endsSlash then b!"/" else []) = sl at *
    split at h
    · simp only [Except.ok.injEq] at h
      subst h
      intro c hc
      rcases List.mem_append.1 hc with hc | hc
      · exact ha c hc
      · exact hs c hc
    · cases hq : iriToUri q with
      | error e => rw [hq] at h; simp at h
      | ok b =>
        have hb := iriToUri_chars q b hq
        rw [hq] at h
        simp only [Except.ok.injEq] at h
        subst h
        intro c hc
        simp only [List.mem_append, List.mem_cons] at hc
        rcases hc with (hc | hc) | rfl | hc
        · exact ha c hc
        · exact hs c hc
        · decide
        · exact hb c hc

theorem uriChar_ascii {c : UInt8} (h : uriChar c = true) : c < 128 := by
  have := forall_u8 (fun c => !uriChar c || decide (c < 128)) (by decide +kernel) c
  simpa [h] using this

/-- **C56** `get_full_path()` contains only URI characters, for every path and query string (and
the final encoding to ASCII with `errors='replace'` never replaces anything). -/
theorem C56_chars (C : Codecs) (path query : PyStr) (fs : Bool) (t : Bytes)
    (h : getFullPath C path query fs = .ok t) :
    (∀ c ∈ t, uriChar c = true) ∧ fullPath C path query fs = .ok t := by
  unfold getFullPath at h
  cases hf : fullPath C path query fs with
  | error e => rw [hf] at h; simp at h
  | ok s =>
    have hs := fullPath_chars C path query fs s hf
    rw [hf] at h
    simp only [Except.ok.injEq] at h
    have : s.map (fun c => if c < 128 then c else 63) = s := by
      conv_rhs => rw [← List.map_id s]
      refine List.map_congr_left fun c hc => ?_
      simp [uriChar_ascii (hs c hc)]
    rw [this] at h
    subst h
    exact ⟨hs, rfl⟩

/-- The text of a string. -/
def PyStr.text : PyStr → UStr
  | .b s => Py.toU s
  | .u s => s

/-- **C56** what `set_path` stores comes back from `get_full_path` unchanged (without a query
string), and storing it again changes nothing.  `hascii`: ASCII text encodes as itself in
UTF-8. -/
theorem C56_stable (C : Codecs) (hascii : ∀ b : Bytes, (∀ c ∈ b, c < 128) →
      C.encode b!"utf-8" (Py.toU b) = .ok b)
    (path p : PyStr) (h : setPath C path true = .ok p) :
    ∃ t : Bytes, p = .u (Py.toU t) ∧ getFullPath C p (.b []) false = .ok t ∧
      setPath C p true = .ok p := by
  unfold setPath at h
  simp only [if_true] at h
  cases hi : iriToUri path with
  | error e => rw [hi] at h; simp at h
  | ok s =>
    rw [hi] at h
    dsimp only at h
    cases he : escapeUriPath C (.u (Py.toU s)) false with
    | error e => rw [he] at h; simp at h
    | ok t =>
      rw [he] at h
      simp only [Except.ok.injEq] at h
      have hk := escapeUriPath_chars C _ t he
      have ha : ∀ c ∈ t, c < 128 := fun c hc => quoteKeeps_ascii (hk c hc)
      have h2 : escapeUriPath C (.u (Py.toU t)) false = .ok t := by
        simp only [escapeUriPath, hascii t ha, Bool.false_eq_true, if_false, quoteBytes_id hk]
      have h3 : iriToUri (.u (Py.toU t)) = .ok t := by
        have : ((Py.toU t).all (· < 128)) = true :=
          List.all_eq_true.2 fun n hn => by simpa using toU_lt ha n hn
        simp only [iriToUri, this, if_true, toU_ofNat]
        exact congrArg _ (quoteBytes_id fun c hc => (iriKeeps_iff c).2 (pathKeeps_uri (hk c hc)))
      refine ⟨t, h.symm, ?_, ?_⟩
      · subst h
        have h4 : fullPath C (.u (Py.toU t)) (.b []) false = .ok t := by
          simp [fullPath, h2, PyStr.len]
        unfold getFullPath
        rw [h4]
        simp only [Except.ok.injEq]
        conv_rhs => rw [← List.map_id t]
        refine List.map_congr_left fun c hc => ?_
        simp [ha c hc]
      · subst h
        simp only [setPath, if_true, h3, h2]

example : (setPath latin1 (.b [47, 97, 32, 233, 63, 37, 52, 49]) true).toOption =
      some (.u (Py.toU b!"/a%20%E9%3F%41")) ∧
    (getFullPath latin1 (.u (Py.toU b!"/a%20%E9%3F%41")) (.b b!"x=y z") true).toOption =
      some b!"/a%20%E9%3F%41/?x=y%20z" :=
  ⟨by decide +kernel, by decide +kernel⟩

end Verif
