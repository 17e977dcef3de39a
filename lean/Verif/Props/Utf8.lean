import Verif.Proofs.Utf8
import Verif.Props.Quote
import Verif.Props.Query
/-!
# C74, C75: the properties of queries and URIs for the codecs of Python

`Props/Query.lean` and `Props/Quote.lean` are about any codec that extends ASCII.  Here they are about UTF-8, as
Python 2.7 reads and writes it.
-/

namespace Verif
open Spec

theorem isAscii_iff (b : Bytes) : Py.isAscii b = true ↔ ∀ c ∈ b, c < 128 := by
  simp [Py.isAscii]

theorem py_replace {enc : Bytes} (he : lookupEnc enc = some .utf8) (b : Bytes) :
    pyCodecs.decodeReplace enc b = .ok (utf8DecodeReplace b) := by
  simp only [pyCodecs, he, Enc.decodeReplace]

theorem py_decode {enc : Bytes} (he : lookupEnc enc = some .utf8) (b : Bytes) :
    pyCodecs.decode enc b = match utf8Decode b with
      | none => .error .unicodeDecodeError
      | some u => .ok u := by
  simp only [pyCodecs, he, Enc.decode]
  rfl

theorem py_encode {enc : Bytes} (he : lookupEnc enc = some .utf8) (u : UStr) :
    pyCodecs.encode enc u = .ok (utf8Encode u) := by
  simp only [pyCodecs, he, Enc.encode]

theorem lookup_utf8 : lookupEnc b!"utf-8" = some .utf8 := by decide +kernel

/-- Valid text is not changed by the `replace` error handler. -/
theorem Spec.Utf8.replace {u : UStr} {b : Bytes} (h : Utf8 u b) : utf8DecodeReplace b = u := by
  have := utf8DecodeReplace_append h []
  simpa [show utf8DecodeReplace [] = [] from rfl] using this

/-- All three encodings extend ASCII. -/
theorem py_asciiCompat {enc : Bytes} {e : Enc} (he : lookupEnc enc = some e) : AsciiCompat pyCodecs enc := by
  intro b hb
  simp only [pyCodecs, he]
  cases e with
  | utf8 => simp only [Enc.decodeReplace, utf8DecodeReplace_ascii hb]
  | ascii =>
    simp only [Enc.decodeReplace, Py.toU]
    refine congrArg _ (List.map_congr_left fun c hc => ?_)
    rw [if_pos (hb c hc)]
  | latin1 => rfl

theorem py_encode_ascii {enc : Bytes} {e : Enc} (he : lookupEnc enc = some e) (b : Bytes) (hb : ∀ c ∈ b, c < 128) :
    pyCodecs.encode enc (Py.toU b) = .ok b := by
  simp only [pyCodecs, he]
  cases e with
  | utf8 => simp only [Enc.encode, utf8Encode_ascii hb]
  | ascii =>
    have : ((Py.toU b).all (· < 128)) = true :=
      List.all_eq_true.2 fun n hn => by simpa using toU_lt hb n hn
    simp only [Enc.encode, this, if_true, toU_ofNat]
  | latin1 =>
    have : ((Py.toU b).all (· < 256)) = true :=
      List.all_eq_true.2 fun n hn => by have := toU_lt hb n hn; simpa using (by omega : n < 256)
    simp only [Enc.encode, this, if_true, toU_ofNat]

theorem py_decode_ascii {enc : Bytes} {e : Enc} (he : lookupEnc enc = some e) (b : Bytes) (hb : ∀ c ∈ b, c < 128) :
    pyCodecs.decode enc b = .ok (Py.toU b) := by
  simp only [pyCodecs, he]
  cases e with
  | utf8 => simp only [Enc.decode, (utf8Decode_iff _ _).2 (utf8_ascii hb)]
  | ascii => simp only [Enc.decode, (isAscii_iff b).2 hb, if_true]
  | latin1 => rfl

/-- Every text of scalar values can be written in UTF-8. -/
theorem py_encodable {enc : Bytes} (he : lookupEnc enc = some .utf8) {u : UStr} (hu : ∀ c ∈ u, Scalar c) :
    Encodable pyCodecs enc u :=
  ⟨_, py_encode he u, by rw [py_replace he, (utf8Encode_spec hu).replace]⟩

/-! ## C74: query strings -/

/-- **C74** Pairs of Unicode text, written as UTF-8 and then form-encoded in any way, are read back
exactly. -/
theorem C74_query (enc : Bytes) (he : lookupEnc enc = some .utf8) (ps : List (UStr × UStr)) (ts : List Bytes) (s : Bytes)
    (h : Pieces (fun b u => Utf8 u b) ps ts) (hj : Joined ts s) :
    limitedParseQsl pyCodecs (Py.toU s) true enc none = .ok ps := by
  refine C52_parse pyCodecs enc (py_asciiCompat he) ps ts s ?_ hj
  clear hj
  induction h with
  | nil => exact .nil
  | skip _ ih => exact .skip ih
  | cons h1 h2 h3 h4 _ ih =>
    exact .cons h1 h2 (by rw [py_replace he, h3.replace]) (by rw [py_replace he, h4.replace]) ih

/-- The conditions can be met: the pair `("é", "€😀")`. -/
example : Pieces (fun b u => Utf8 u b) [([0xE9], [0x20AC, 0x1F600])] [b!"%C3%A9=%E2%82%AC%F0%9F%98%80"] ∧
    Joined [b!"%C3%A9=%E2%82%AC%F0%9F%98%80"] b!"%C3%A9=%E2%82%AC%F0%9F%98%80" ∧
    (limitedParseQsl pyCodecs (Py.toU b!"%C3%A9=%E2%82%AC%F0%9F%98%80") true b!"utf-8" none).toOption =
      some [([0xE9], [0x20AC, 0x1F600])] := by
  refine ⟨?_, .one _, by decide +kernel⟩
  refine .cons (kt := b!"%C3%A9") (vt := b!"%E2%82%AC%F0%9F%98%80") (kb := [0xC3, 0xA9])
    (vb := [0xE2, 0x82, 0xAC, 0xF0, 0x9F, 0x98, 0x80]) ?_ ?_ ?_ ?_ .nil
  · exact .esc 67 51 12 3 (by decide) (by decide) (.esc 65 57 10 9 (by decide) (by decide) .nil)
  · exact .esc 69 50 14 2 (by decide) (by decide) (.esc 56 50 8 2 (by decide) (by decide)
      (.esc 65 67 10 12 (by decide) (by decide) (.esc 70 48 15 0 (by decide) (by decide)
      (.esc 57 70 9 15 (by decide) (by decide) (.esc 57 56 9 8 (by decide) (by decide)
      (.esc 56 48 8 0 (by decide) (by decide) .nil))))))
  · exact (utf8Decode_iff _ _).1 (by decide +kernel)
  · exact (utf8Decode_iff _ _).1 (by decide +kernel)

/-- **C74** the text of a query string given as `str`: UTF-8 text if the bytes are valid UTF-8,
otherwise every byte is one character. -/
theorem C74_text (S : Settings) (he : lookupEnc S.defaultCharset = some .utf8) (s : Bytes) :
    (∀ u, Utf8 u s → queryText pyCodecs S (some (.b s)) = .ok u) ∧
    ((¬ ∃ u, Utf8 u s) → queryText pyCodecs S (some (.b s)) = .ok (Py.toU s)) := by
  unfold queryText
  simp only [py_decode he]
  refine ⟨fun u hu => ?_, fun hn => ?_⟩
  · rw [(utf8Decode_iff _ _).2 hu]
  · cases hd : utf8Decode s with
    | some u => exact absurd ⟨u, (utf8Decode_iff _ _).1 hd⟩ hn
    | none =>
      simp only [pyCodecs, show lookupEnc b!"iso-8859-1" = some .latin1 by decide +kernel]
      rfl

/-- Both cases occur. -/
example : Utf8 [0xE9] [0xC3, 0xA9] ∧ (¬ ∃ u, Utf8 u [0xE9]) := by
  refine ⟨(utf8Decode_iff _ _).1 (by decide +kernel), fun ⟨u, hu⟩ => ?_⟩
  have := (utf8Decode_iff _ _).2 hu
  rw [show utf8Decode [0xE9] = none by decide +kernel] at this
  cases this

/-- **C74** the round trip of `QueryDict` and `urlencode` for UTF-8: keys are any Unicode text, values
ASCII text. -/
theorem C74_querydict_partial (S : Settings) (he : lookupEnc S.defaultCharset = some .utf8)
    (safe : Option Bytes) (hs : ∀ s ∈ safe, ∀ c ∈ s, c ∉ b!"%+&;=")
    (d : List (UStr × List UStr)) (hn : (d.map Prod.fst).Nodup) (hne : ∀ p ∈ d, p.2 ≠ [])
    (hk : ∀ p ∈ d, ∀ c ∈ p.1, Scalar c) (hv : ∀ p ∈ d, ∀ v ∈ p.2, ∀ n ∈ v, n < 128)
    (hlim : Admits S.maxFields (d.map (fun p => p.2.length)).sum) (mt : Bool) (m : Mem PyStr PyStr) (wf : m.WF) :
    ∃ s m', urlencodeLists pyCodecs S.defaultCharset safe d = .ok s ∧
      newQueryDict pyCodecs S (some (.b s)) mt m = (.ok m.dicts.length, m') ∧
      ∀ k, m'.abs m.dicts.length (.u k) = (Dict.get? d k).map (·.map (fun v => .atom (.u v))) :=
  C52_querydict_partial pyCodecs S (py_asciiCompat he) (py_decode_ascii he) safe hs d hn hne
    (fun p hp => py_encodable he (hk p hp))
    (fun p hp v hw => ⟨py_encodable he (fun c hc => by have := hv p hp v hw c hc; exact ⟨by omega, by omega⟩),
      hv p hp v hw⟩) hlim mt m wf

example : (urlencodeLists pyCodecs b!"utf-8" none [([0x20AC], [Py.toU b!"1 2"])]).toOption =
    some b!"%E2%82%AC=1+2" := by decide +kernel

/-! ### Damaged text is marked -/

theorem utf8Replace_clean : ∀ (n : Nat) (s : Bytes), s.length ≤ n → 0xFFFD ∉ utf8DecodeReplace s →
    Utf8 (utf8DecodeReplace s) s := by
  intro n
  induction n with
  | zero =>
    intro s h _
    have : s = [] := List.eq_nil_of_length_eq_zero (by omega)
    subst this
    exact .nil
  | succ n ih =>
    intro s h hr
    cases s with
    | nil => exact .nil
    | cons b t =>
      rw [utf8DecodeReplace_cons] at hr ⊢
      generalize hp : utf8Step b t = p at hr ⊢
      obtain ⟨o, k⟩ := p
      cases o with
      | none => simp at hr
      | some c =>
        obtain ⟨r, t', rfl, hl, hc⟩ := utf8Step_some hp
        simp only [← hl, List.drop_left, Option.getD_some, List.mem_cons, not_or] at hr ⊢
        simp only [List.length_cons, List.length_append] at h
        exact .cons hc (ih t' (by omega) hr.2)

/-- **C74** Damaged text is marked: a pair read from a form-encoded query string either contains
U+FFFD or is exactly the text its bytes are UTF-8 for. -/
theorem C74_marked (enc : Bytes) (he : lookupEnc enc = some .utf8) (kt kb vt vb : Bytes)
    (hk : FormEnc kt kb) (hv : FormEnc vt vb) :
    ∃ k v, limitedParseQsl pyCodecs (Py.toU (kt ++ 61 :: vt)) true enc none = .ok [(k, v)] ∧
      (0xFFFD ∉ k → Utf8 k kb) ∧ (0xFFFD ∉ v → Utf8 v vb) := by
  refine ⟨utf8DecodeReplace kb, utf8DecodeReplace vb, ?_, utf8Replace_clean _ _ (Nat.le_refl _),
    utf8Replace_clean _ _ (Nat.le_refl _)⟩
  exact C52_parse pyCodecs enc (py_asciiCompat he) _ [kt ++ 61 :: vt] _
    (.cons hk hv (py_replace he kb) (py_replace he vb) .nil) (.one _)

example : (limitedParseQsl pyCodecs (Py.toU b!"a=%C3%28%E2%82") true b!"utf-8" none).toOption =
    some [(Py.toU b!"a", [0xFFFD, 40, 0xFFFD])] := by decide +kernel

/-! ## C75: URIs -/

/-- **C75** `uri_to_iri` undoes `iri_to_uri` on the UTF-8 form of every Unicode text without `%`. -/
theorem C75_iri (u : UStr) (hu : ∀ c ∈ u, Scalar c) (h37 : 37 ∉ u) (x t : Bytes) (hx : Utf8 u x)
    (ht : iriToUri (.b x) = .ok t) : uriToIri pyCodecs (Py.toU t) = .ok x := by
  refine C55_iri_roundtrip pyCodecs (py_encode_ascii lookup_utf8) x ?_ u (by rw [py_replace lookup_utf8, hx.replace])
    (by rw [py_encode lookup_utf8, (utf8Encode_spec hu).unique hx]) t ht
  intro hm
  apply h37
  clear ht hu
  have key : ∀ {c b}, Utf8Char c b → (37 : UInt8) ∈ b → c = 37 := by
    intro c b h hb
    have e : (37 : UInt8).toNat = 37 := rfl
    cases h <;> simp only [List.mem_cons, List.not_mem_nil, or_false, Cont] at * <;>
      first
      | (subst hb; omega)
      | (exfalso
         rcases hb with rfl | rfl | rfl | rfl <;> omega)
      | (exfalso
         rcases hb with rfl | rfl | rfl <;> omega)
      | (exfalso
         rcases hb with rfl | rfl <;> omega)
  induction hx with
  | nil => simp at hm
  | cons hc _ ih =>
    rcases List.mem_append.1 hm with h | h
    · simp [key hc h]
    · exact List.mem_cons_of_mem _ (ih (fun h' => h37 (List.mem_cons_of_mem _ h')) h)

example : (iriToUri (.b [47, 73, 32, 226, 153, 165])).toOption = some b!"/I%20%E2%99%A5" ∧
    (uriToIri pyCodecs (Py.toU b!"/I%20%E2%99%A5")).toOption = some [47, 73, 32, 226, 153, 165] ∧
    Utf8 [47, 73, 32, 0x2665] [47, 73, 32, 226, 153, 165] :=
  ⟨by decide +kernel, by decide +kernel, (utf8Decode_iff _ _).1 (by decide +kernel)⟩

/-- It does not on other bytes: a byte that is no UTF-8 comes back as U+FFFD, and a pair of encoded surrogates comes back as one
character. -/
theorem C75_refuted :
    ((iriToUri (.b [0xFF])).toOption = some b!"%FF" ∧
      (uriToIri pyCodecs (Py.toU b!"%FF")).toOption = some [0xEF, 0xBF, 0xBD]) ∧
    ((iriToUri (.b [0xED, 0xA0, 0xBD, 0xED, 0xB8, 0x80])).toOption = some b!"%ED%A0%BD%ED%B8%80" ∧
      (uriToIri pyCodecs (Py.toU b!"%ED%A0%BD%ED%B8%80")).toOption = some [0xF0, 0x9F, 0x98, 0x80]) := by
  decide +kernel

/-- **C75** the path stored by `set_path` is stable, with Python's UTF-8. -/
theorem C75_path (path p : PyStr) (h : setPath pyCodecs path true = .ok p) :
    ∃ t : Bytes, p = .u (Py.toU t) ∧ getFullPath pyCodecs p (.b []) false = .ok t ∧ setPath pyCodecs p true = .ok p :=
  C56_stable pyCodecs (py_encode_ascii lookup_utf8) path p h

example : (setPath pyCodecs (.b [47, 0xC3, 0xA9, 63]) true).toOption = some (.u (Py.toU b!"/%C3%A9%3F")) := by
  decide +kernel

/-- A path given as `unicode` outside ASCII is rejected, although UTF-8 could write it: `iri_to_uri`
calls `str` on it. -/
theorem C75_unicode_path (u : UStr) (h : ∃ c ∈ u, 128 ≤ c) :
    setPath pyCodecs (.u u) true = .error .unicodeEncodeError := by
  unfold setPath
  simp only [if_true]
  rw [(C54_unicode u).2 h]

end Verif
