import Verif.Props.Unknown
import Verif.Props.Query
import Verif.Model.Uri
/-!
# What a request says before it is parsed (C125), and which dictionaries `urlencode` can write (C52)
-/

namespace Verif
open Spec

section
variable {ρ σ F : Type}

/-- Nothing is known about the request. -/
structure Spec.Unparsed (r : Req ρ σ F) : Prop where
  method : r.method = none
  scheme : r.scheme = none
  host : r.host = none
  port : r.port = none
  path : r.path = none
  proto : r.proto = none
  info : r.info = some {}
  contentType : r.contentType = some none
  get : r.get = some ⟨[], true⟩
  headerParsed : r.headerParsed = false
  bodyParsed : r.bodyParsed = false

/-- Nothing is known about a new request, and about one that has just been given another stream. -/
theorem C125_new [Producer ρ] (S : Settings) (p : ρ) (r : Req ρ σ F) :
    (∀ r', (Req.new pyCodecs S p : Except Exc (Req ρ σ F)) = .ok r' → Unparsed r') ∧
    (∀ r', Req.setStream pyCodecs S p r = (.ok (), r') → Unparsed r') := by
  constructor
  · intro r' h
    rcases usable_or S with ⟨h1, -⟩ | ⟨-, e, h1⟩
    · rw [(C123_new S p).2 h1] at h
      cases h
      exact ⟨rfl, rfl, rfl, rfl, rfl, rfl, rfl, rfl, rfl, rfl, rfl⟩
    · rw [(C123_new S p).1 e ((h1 e).2 rfl)] at h
      cases h
  · intro r' h
    obtain ⟨r1, x, h1, h2, h3, h4, h5, h6, h7, h8, -, -, -, h9, h10⟩ := C123_stream S p r
    rw [h] at h1
    cases h1
    rcases usable_or S with ⟨hu, -⟩ | ⟨-, e, he⟩
    · obtain ⟨-, k1, k2, k3, k4, k5⟩ := h10 hu
      have k3' : r'.contentType = some none := by
        unfold Req.setStream Req.reInit at h
        rw [queryDict_usable hu] at h
        cases h
        rfl
      exact ⟨h3, h4, h5, h6, h7, h8, k2, k3', k1, k4, k5⟩
    · have := (h9 e ((he e).2 rfl)).1
      cases this

/-- The addresses of such a request. -/
theorem C125_addresses (C : Codecs) {r : Req ρ σ F} (h : Unparsed r) (force raw : Bool) :
    r.getPath = [] ∧ r.getFullPath pyCodecs force raw = .ok (if force then b!"/" else []) ∧
    r.getUri C raw = .ok b!"None://None" ∧ r.schemeHost = b!"None://None" ∧ r.repr C = .ok b!"<HttpRequest>" := by
  have e1 : r.getPath = [] := by
    unfold Req.getPath
    rw [h.path]
    rfl
  have e2 : ∀ C, r.getFullPath C false raw = .ok [] := by
    intro C
    unfold Req.getFullPath
    rw [h.info, e1]
    cases raw <;> rfl
  have e3 : r.getFullPath pyCodecs true raw = .ok b!"/" := by
    unfold Req.getFullPath
    rw [h.info, e1]
    cases raw
    · rfl
    · have h1 : (getFullPathRaw pyCodecs (.b []) (.b []) true).toOption = some b!"/" := by decide +kernel
      show getFullPathRaw pyCodecs (.b []) (.b []) true = _
      cases hx : getFullPathRaw pyCodecs (.b []) (.b []) true with
      | error e => rw [hx] at h1; cases h1
      | ok t =>
        rw [hx] at h1
        cases h1
        rfl
  refine ⟨e1, ?_, ?_, ?_, ?_⟩
  · cases force
    · exact e2 pyCodecs
    · exact e3
  · unfold Req.getUri
    rw [e2, h.scheme, h.host]
    rfl
  · unfold Req.schemeHost
    rw [h.scheme, h.host]
    rfl
  · unfold Req.repr
    rw [h.method]

/-- What else such a request answers. -/
theorem C125_answers [Producer ρ] {r : Req ρ σ F} (h : Unparsed r) :
    r.getPort = b!"None" ∧ r.isSecure = false ∧ r.isPlainText = .ok false ∧ r.isAjax = .error .keyError := by
  refine ⟨?_, ?_, ?_, ?_⟩
  · unfold Req.getPort
    rw [h.port]
  · unfold Req.isSecure
    rw [h.scheme]
    rfl
  · unfold Req.isPlainText
    rw [h.contentType]
    rfl
  · unfold Req.isAjax
    rw [h.info]

/-- After a change of stream that failed it does not even have that. -/
theorem C125_lost [Producer ρ] (C : Codecs) (S : Settings) (p : ρ) (r : Req ρ σ F) {r' : Req ρ σ F} {e : Exc}
    (h : Req.setStream pyCodecs S p r = (.error e, r')) (force raw : Bool) :
    r'.getFullPath C force raw = .error .attributeError ∧ r'.getUri C raw = .error .attributeError ∧
    r'.isAjax = .error .attributeError ∧ r'.isPlainText = .error .attributeError := by
  obtain ⟨r1, x, h1, h2, -, -, -, -, -, -, -, -, -, h9, h10⟩ := C123_stream S p r
  rw [h] at h1
  cases h1
  rcases usable_or S with ⟨hu, -⟩ | ⟨-, e', he⟩
  · have := (h10 hu).1
    cases this
  · obtain ⟨-, -, k1, k2, -, -⟩ := h9 e' ((he e').2 rfl)
    have e1 : ∀ force raw, r'.getFullPath C force raw = .error .attributeError := by
      intro force raw
      unfold Req.getFullPath
      rw [k1]
    refine ⟨e1 _ _, ?_, ?_, k2⟩
    · unfold Req.getUri
      rw [e1]
    · unfold Req.isAjax
      rw [k1]

end

example : Unparsed (freshReq (⟨[b!"GET / HTTP/1.1"]⟩ : Source) : Req Source BWorld Uploaded) :=
  (C125_new {} _ (freshReq (⟨[]⟩ : Source))).1 _ ((C123_new {} _).2 ⟨by decide, by decide⟩)

example : ∃ r', Req.setStream pyCodecs { defaultCharset := b!"koi9" } ⟨[]⟩
    (freshReq (⟨[b!"GET / HTTP/1.1"]⟩ : Source) : Req Source BWorld Uploaded) = (.error .lookupError, r') := by
  obtain ⟨r', x, h, -, -, -, -, -, -, -, -, -, -, h9, -⟩ := C123_stream { defaultCharset := b!"koi9" } ⟨[]⟩
    (freshReq (⟨[b!"GET / HTTP/1.1"]⟩ : Source) : Req Source BWorld Uploaded)
  have := (h9 .lookupError (.inl ⟨by decide, rfl⟩)).1
  exact ⟨r', by rw [h, this]⟩

/-! ### C52 -/

/-- The text can be written in the charset. -/
def Spec.Writes (enc : Bytes) (u : UStr) : Prop :=
  let n := (Py.lower enc).map (fun c => if c = 95 then 45 else c)
  n ∈ [b!"utf-8", b!"utf8"] ∨ (n ∈ [b!"ascii", b!"us-ascii"] ∧ ∀ c ∈ u, c < 128) ∨
    (n ∈ [b!"iso-8859-1", b!"iso8859-1", b!"latin-1", b!"latin1"] ∧ ∀ c ∈ u, c < 256)

theorem encode_writes {enc : Bytes} (hk : KnownCharset enc) (u : UStr) :
    (Writes enc u ∧ ∃ b, pyCodecs.encode enc u = .ok b) ∨
    (¬ Writes enc u ∧ pyCodecs.encode enc u = .error .unicodeEncodeError) := by
  unfold Writes
  have hl : lookupEnc enc ≠ none := fun h => lookupEnc_none.1 h hk
  unfold lookupEnc at hl
  simp only [pyCodecs]
  unfold lookupEnc
  simp only at hl ⊢
  generalize (Py.lower enc).map (fun c => if c = 95 then 45 else c) = n at hl ⊢
  by_cases h1 : n ∈ [b!"utf-8", b!"utf8"]
  · rw [if_pos h1]
    exact .inl ⟨.inl h1, _, rfl⟩
  · rw [if_neg h1] at hl ⊢
    by_cases h2 : n ∈ [b!"ascii", b!"us-ascii"]
    · rw [if_pos h2]
      have h3 : n ∉ [b!"iso-8859-1", b!"iso8859-1", b!"latin-1", b!"latin1"] := by
        simp only [List.mem_cons, List.not_mem_nil, or_false] at h2
        rcases h2 with rfl | rfl <;> decide
      by_cases h4 : u.all (· < 128) = true
      · refine .inl ⟨.inr (.inl ⟨h2, by simpa using h4⟩), u.map UInt8.ofNat, ?_⟩
        exact if_pos h4
      · refine .inr ⟨?_, if_neg h4⟩
        rintro (h | ⟨-, h⟩ | ⟨h, -⟩)
        · exact h1 h
        · exact h4 (by simpa using h)
        · exact h3 h
    · rw [if_neg h2] at hl ⊢
      by_cases h3 : n ∈ [b!"iso-8859-1", b!"iso8859-1", b!"latin-1", b!"latin1"]
      · rw [if_pos h3]
        by_cases h4 : u.all (· < 256) = true
        · refine .inl ⟨.inr (.inr ⟨h3, by simpa using h4⟩), u.map UInt8.ofNat, ?_⟩
          exact if_pos h4
        · refine .inr ⟨?_, if_neg h4⟩
          rintro (h | ⟨h, -⟩ | ⟨-, h⟩)
          · exact h1 h
          · exact h2 h
          · exact h4 (by simpa using h)
      · rw [if_neg h3] at hl
        exact absurd rfl hl

theorem ascii_writes {enc : Bytes} (hk : KnownCharset enc) {u : UStr} (hu : ∀ c ∈ u, c < 128) : Writes enc u := by
  unfold Writes
  unfold KnownCharset at hk
  simp only
  generalize (Py.lower enc).map (fun c => if c = 95 then 45 else c) = n at hk ⊢
  simp only [List.mem_cons, List.not_mem_nil, or_false] at hk ⊢
  have h2 : ∀ c ∈ u, c < 256 := fun c hc => by have := hu c hc; omega
  rcases hk with h | h | h | h | h | h | h | h
  · exact .inl (.inl h)
  · exact .inl (.inr h)
  · exact .inr (.inl ⟨.inl h, hu⟩)
  · exact .inr (.inl ⟨.inr h, hu⟩)
  · exact .inr (.inr ⟨.inl h, h2⟩)
  · exact .inr (.inr ⟨.inr (.inl h), h2⟩)
  · exact .inr (.inr ⟨.inr (.inr (.inl h)), h2⟩)
  · exact .inr (.inr ⟨.inr (.inr (.inr h)), h2⟩)

theorem encodePair_writes {enc : Bytes} (hk : KnownCharset enc) (safe : Option Bytes) (k v : UStr) :
    ((Writes enc k ∧ ∀ c ∈ v, c < 128) ∧ ∃ b, encodePair pyCodecs enc safe k v = .ok b) ∨
    (¬ (Writes enc k ∧ ∀ c ∈ v, c < 128) ∧ encodePair pyCodecs enc safe k v = .error .unicodeEncodeError) := by
  unfold encodePair
  rcases encode_writes hk k with ⟨h1, b, h2⟩ | ⟨h1, h2⟩
  · rw [h2]
    simp only
    unfold encodeValue
    by_cases h3 : v.all (· < 128) = true
    · rw [if_pos h3]
      have h4 : ∀ c ∈ v, c < 128 := by simpa using h3
      rcases encode_writes hk v with ⟨-, b', h5⟩ | ⟨h5, -⟩
      · rw [h5]
        cases safe <;> exact .inl ⟨⟨h1, h4⟩, _, rfl⟩
      · exact absurd (ascii_writes hk h4) h5
    · rw [if_neg h3]
      exact .inr ⟨fun h => h3 (by simpa using h.2), rfl⟩
  · rw [h2]
    exact .inr ⟨fun h => h1 h.1, rfl⟩

theorem encodePairs_writes {enc : Bytes} (hk : KnownCharset enc) (safe : Option Bytes) : ∀ (ps : List (UStr × UStr)),
    ((∀ p ∈ ps, Writes enc p.1 ∧ ∀ c ∈ p.2, c < 128) ∧ ∃ b, encodePairs pyCodecs enc safe ps = .ok b) ∨
    (¬ (∀ p ∈ ps, Writes enc p.1 ∧ ∀ c ∈ p.2, c < 128) ∧ encodePairs pyCodecs enc safe ps = .error .unicodeEncodeError)
  | [] => .inl ⟨by simp, _, rfl⟩
  | (k, v) :: ps => by
    unfold encodePairs
    rcases encodePair_writes hk safe k v with ⟨h1, b, h2⟩ | ⟨h1, h2⟩
    · rw [h2]
      rcases encodePairs_writes hk safe ps with ⟨h3, bs, h4⟩ | ⟨h3, h4⟩
      · rw [h4]
        refine .inl ⟨?_, _, rfl⟩
        intro p hp
        rcases List.mem_cons.1 hp with rfl | hp
        · exact h1
        · exact h3 p hp
      · rw [h4]
        exact .inr ⟨fun h => h3 fun p hp => h p (List.mem_cons_of_mem _ hp), rfl⟩
    · rw [h2]
      exact .inr ⟨fun h => h1 (h (k, v) (by simp)), rfl⟩

/-- **C52**: which dictionaries `urlencode` writes, with the codecs of Python: those whose values are ASCII and whose keys
(those with values) can be written in the charset of the dictionary.  All others are a `UnicodeEncodeError`. -/
theorem C52_written {enc : Bytes} (hk : KnownCharset enc) (safe : Option Bytes) (d : List (UStr × List UStr)) :
    ((∃ t, urlencodeLists pyCodecs enc safe d = .ok t) ↔ ∀ p ∈ d, ∀ v ∈ p.2, Writes enc p.1 ∧ ∀ c ∈ v, c < 128) ∧
    (∀ e, urlencodeLists pyCodecs enc safe d = .error e → e = .unicodeEncodeError) := by
  have hflat : (∀ p ∈ d, ∀ v ∈ p.2, Writes enc p.1 ∧ ∀ c ∈ v, c < 128) ↔
      ∀ p ∈ flatPairs d, Writes enc p.1 ∧ ∀ c ∈ p.2, c < 128 := by
    unfold flatPairs
    constructor
    · intro h p hp
      obtain ⟨q, hq, hp⟩ := List.mem_flatMap.1 hp
      obtain ⟨v, hv, rfl⟩ := List.mem_map.1 hp
      exact h q hq v hv
    · intro h p hp v hv
      exact h (p.1, v) (List.mem_flatMap.2 ⟨p, hp, List.mem_map.2 ⟨v, hv, rfl⟩⟩)
  rw [hflat]
  unfold urlencodeLists
  rcases encodePairs_writes hk safe (flatPairs d) with ⟨h1, b, h2⟩ | ⟨h1, h2⟩
  · rw [h2]
    exact ⟨⟨fun _ => h1, fun _ => ⟨_, rfl⟩⟩, fun e h => by cases h⟩
  · rw [h2]
    refine ⟨⟨?_, fun h => absurd h h1⟩, fun e h => by cases h; rfl⟩
    rintro ⟨t, h⟩
    cases h

/-- **C74 is false** of `urlencode`: whatever else a dictionary has, one value that is not ASCII makes it raise
`UnicodeEncodeError`, also with UTF-8, in which the value could be written. -/
theorem C74_refuted {enc : Bytes} (hk : KnownCharset enc) (safe : Option Bytes) {d : List (UStr × List UStr)} {k v : UStr}
    {vs : List UStr} (hd : (k, vs) ∈ d) (hv : v ∈ vs) {c : Nat} (hc : c ∈ v) (h : 128 ≤ c) :
    urlencodeLists pyCodecs enc safe d = .error .unicodeEncodeError := by
  obtain ⟨h1, h2⟩ := C52_written hk safe d
  cases hr : urlencodeLists pyCodecs enc safe d with
  | error e => rw [h2 e hr]
  | ok t =>
    have := (h1.1 ⟨t, hr⟩ (k, vs) hd v hv).2 c hc
    omega

example : urlencodeLists pyCodecs b!"utf-8" none [(Py.toU b!"a", [Py.toU b!"1"]), (Py.toU b!"b", [Py.toU b!"2", [233]])] =
    .error .unicodeEncodeError :=
  C74_refuted (by unfold KnownCharset; decide) none (k := Py.toU b!"b") (v := [233]) (vs := [Py.toU b!"2", [233]])
    (c := 233) (by simp) (by simp) (by simp) (by decide)

/-- In ISO-8859-1 a key may be an é, but not a Euro sign; a value must not be an é. -/
example : Writes b!"ISO-8859-1" [233] ∧ ¬ Writes b!"ISO-8859-1" [8364] ∧ Writes b!"utf_8" [8364] ∧
    ¬ Writes b!"ascii" [233] ∧
    (urlencodeLists pyCodecs b!"ISO-8859-1" none [([233], [Py.toU b!"x"])]).toOption = some b!"%E9=x" ∧
    (urlencodeLists pyCodecs b!"ISO-8859-1" none [([8364], [Py.toU b!"x"])]).toOption = none ∧
    (urlencodeLists pyCodecs b!"ascii" none [([233], [])]).toOption = some [] := by
  refine ⟨?_, ?_, ?_, ?_, ?_, ?_, ?_⟩
  · unfold Writes; decide
  · unfold Writes; decide
  · unfold Writes; decide
  · unfold Writes; decide
  all_goals decide +kernel

end Verif
