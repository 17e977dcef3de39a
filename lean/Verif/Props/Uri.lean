import Verif.Model.Uri
import Verif.Spec.Uri
import Verif.Props.Quote
import Verif.Props.Message
/-!
# C79-C82: URIs of a request, quoting, `urlencode`
-/

namespace Verif
open Spec

/-! ### C79: `get_full_path` -/

theorem hexDigit_get (c : UInt8) :
    b!"0123456789ABCDEF"[c.toNat / 16]? = some (hexDigit (c / 16)) ∧
    b!"0123456789ABCDEF"[c.toNat % 16]? = some (hexDigit (c % 16)) := by
  have := forall_u8 (fun c => decide (b!"0123456789ABCDEF"[c.toNat / 16]? = some (hexDigit (c / 16)) ∧
    b!"0123456789ABCDEF"[c.toNat % 16]? = some (hexDigit (c % 16)))) (by decide +kernel) c
  exact of_decide_eq_true this

theorem escaped_iff {keep : UInt8 → Bool} {safe : Bytes} (h : ∀ c, quoteKeeps safe c ↔ keep c = true) (s t : Bytes) :
    Escaped keep s t ↔ t = quoteBytes safe s := by
  constructor
  · intro he
    induction he with
    | nil => rfl
    | kept c hc _ ih =>
      have hk : alwaysSafe c = true ∨ (c ∈ safe ∧ c < 128) := (h c).2 hc
      rw [quoteBytes_cons, quoteByte, if_pos hk, ih]; rfl
    | esc c x y hc hx hy _ ih =>
      have hn : ¬ (alwaysSafe c = true ∨ (c ∈ safe ∧ c < 128)) := fun hk => by rw [(h c).1 hk] at hc; cases hc
      obtain ⟨h1, h2⟩ := hexDigit_get c
      rw [h1] at hx; rw [h2] at hy
      cases hx; cases hy
      rw [quoteBytes_cons, quoteByte, if_neg hn, ih]; rfl
  · rintro rfl
    induction s with
    | nil => exact .nil
    | cons c s ih =>
      rw [quoteBytes_cons]
      unfold quoteByte
      split
      · rename_i hk
        exact .kept c ((h c).1 hk) ih
      · rename_i hk
        obtain ⟨h1, h2⟩ := hexDigit_get c
        exact .esc c _ _ (by rw [← Bool.not_eq_true]; exact fun e => hk ((h c).2 e)) h1 h2 ih

theorem pathKeeps_iff (c : UInt8) : quoteKeeps pathSafePct c ↔ pathChar c = true := by
  have := forall_u8 (fun c => decide (quoteKeeps pathSafePct c ↔ pathChar c = true)) (by decide +kernel) c
  exact of_decide_eq_true this

theorem Spec.Escaped.kept_all {keep : UInt8 → Bool} {s : Bytes} (h : ∀ c ∈ s, keep c = true) : Escaped keep s s := by
  induction s with
  | nil => exact .nil
  | cons c s ih => exact .kept c (h c (by simp)) (ih fun d hd => h d (by simp [hd]))

theorem Spec.Escaped.unique {keep : UInt8 → Bool} {s t t' : Bytes} (h : Escaped keep s t) (h' : Escaped keep s t') :
    t = t' := by
  induction h generalizing t' with
  | nil => cases h'; rfl
  | kept c hc _ ih =>
    cases h' with
    | kept _ _ h' => rw [ih h']
    | esc _ _ _ hn => rw [hc] at hn; cases hn
  | esc c x y hc hx hy _ ih =>
    cases h' with
    | kept _ hk => rw [hc] at hk; cases hk
    | esc _ _ _ _ hx' hy' h' =>
      rw [hx] at hx'; rw [hy] at hy'
      cases hx'; cases hy'
      rw [ih h']

theorem Spec.Escaped.chars {keep : UInt8 → Bool} {s t : Bytes} (h : Escaped keep s t)
    (hx : ∀ c ∈ b!"0123456789ABCDEF%", keep c = true) : ∀ c ∈ t, keep c = true := by
  induction h with
  | nil => simp
  | kept c hc _ ih =>
    intro d hd
    rcases List.mem_cons.1 hd with rfl | hd
    · exact hc
    · exact ih d hd
  | esc c x y hc hx' hy' _ ih =>
    have m1 := List.mem_of_getElem? hx'
    have m2 := List.mem_of_getElem? hy'
    intro d hd
    simp only [List.mem_cons] at hd
    have key : ∀ x ∈ b!"0123456789ABCDEF", x ∈ b!"0123456789ABCDEF%" := by decide
    rcases hd with rfl | rfl | rfl | hd
    · exact hx _ (by decide)
    · exact hx _ (key _ m1)
    · exact hx _ (key _ m2)
    · exact ih d hd

theorem hexVal_keeps {keep : UInt8 → Bool} (hk : ∀ c, quoteKeeps pathSafePct c → keep c = true) {x a : UInt8}
    (h : hexValue x = some a) : keep x = true := by
  have := forall_u8 (fun x => decide ((hexValue x).isSome = true → quoteKeeps pathSafePct x)) (by decide +kernel) x
  exact hk x (of_decide_eq_true this (by rw [h]; rfl))

theorem hex_value {c x y : UInt8} (hx : b!"0123456789ABCDEF"[c.toNat / 16]? = some x)
    (hy : b!"0123456789ABCDEF"[c.toNat % 16]? = some y) :
    ∃ a b, hexValue x = some a ∧ hexValue y = some b ∧ a * 16 + b = c := by
  obtain ⟨h1, h2⟩ := hexDigit_get c
  rw [h1] at hx; rw [h2] at hy
  cases hx; cases hy
  obtain ⟨h1, h2, h3, _⟩ := hexVal_hexDigit c
  exact ⟨_, _, h1, h2, h3⟩

/-- Escaping does not change what a percent-encoded text stands for. -/
theorem Spec.Escaped.pct {keep : UInt8 → Bool} (hk : ∀ c, quoteKeeps pathSafePct c → keep c = true) {s t b : Bytes}
    (h : Escaped keep s t) (hp : Pct s b) : Pct t b := by
  have h37 : keep 37 = true := hk 37 (by decide)
  induction hp generalizing t with
  | nil => cases h; exact .nil
  | lit c hc _ ih =>
    cases h with
    | kept _ _ h => exact .lit c hc (ih h)
    | esc _ x y _ hx hy h =>
      obtain ⟨a, b, h1, h2, rfl⟩ := hex_value hx hy
      exact .esc x y a b h1 h2 (ih h)
  | esc x y a c hx hy _ ih =>
    cases h with
    | esc _ _ _ hn => rw [h37] at hn; cases hn
    | kept _ _ h =>
      cases h with
      | esc _ _ _ hn => rw [hexVal_keeps hk hx] at hn; cases hn
      | kept _ _ h =>
        cases h with
        | esc _ _ _ hn => rw [hexVal_keeps hk hy] at hn; cases hn
        | kept _ _ h => exact .esc x y a c hx hy (ih h)

theorem uriChar_of_path (c : UInt8) (h : quoteKeeps pathSafePct c) : uriChar c = true := pathKeeps_uri h

theorem endsWith_slash (s : Bytes) : Py.endsWith [47] s = true ↔ s.getLast? = some 47 := by
  unfold Py.endsWith
  rw [List.isSuffixOf_iff_suffix]
  constructor
  · rintro ⟨t, rfl⟩; simp
  · intro h
    obtain ⟨t, rfl⟩ := List.getLast?_eq_some_iff.1 h
    exact ⟨t, rfl⟩

/-- **C79.**  `get_full_path()` of a path and a query string (as bytes) always succeeds with exactly
this text: the escaped path, the slash if asked for and missing, and, unless the query string is
empty, `?` and the escaped query string. -/
theorem C79_full_path (C : Codecs) (path query : Bytes) (force : Bool) (t : Bytes) :
    getFullPath C (.b path) (.b query) force = .ok t ↔
      ∃ p slash q, Escaped pathChar path p ∧ Slash force path slash ∧ Escaped uriChar query q ∧
        t = p ++ slash ++ (if query = [] then [] else b!"?" ++ q) := by
  have hp := escaped_iff pathKeeps_iff path
  have hq := escaped_iff iriKeeps_iff query
  have hs : Slash force path (if force && !Py.endsWith [47] path then b!"/" else []) := by
    unfold Slash
    congr 1
    simp only [Bool.and_eq_true, Bool.not_eq_true', ← Bool.not_eq_true, endsWith_slash, ne_eq]
  have hfull : fullPath C (.b path) (.b query) force = .ok (quoteBytes pathSafePct path ++
      (if force && !Py.endsWith [47] path then b!"/" else []) ++
      (if query = [] then [] else b!"?" ++ quoteBytes iriSafe query)) := by
    unfold fullPath escapeUriPath iriToUri PyStr.endsSlash PyStr.len
    by_cases h0 : query = []
    · simp [h0]
    · have : query.length ≠ 0 := by simpa using h0
      simp [h0]
  have hmap : getFullPath C (.b path) (.b query) force = fullPath C (.b path) (.b query) force := by
    unfold getFullPath
    rw [hfull]
    simp only
    have hch := fullPath_chars C _ _ _ _ hfull
    rw [show ∀ l : Bytes, (∀ c ∈ l, c < 128) → l.map (fun c => if c < 128 then c else 63) = l from fun l hl => by
      conv_rhs => rw [← List.map_id l]
      exact List.map_congr_left fun c hc => by simp [hl c hc]]
    exact fun c hc => uriChar_ascii (hch c hc)
  rw [hmap, hfull]
  constructor
  · intro h
    cases h
    exact ⟨_, _, _, (hp _).2 rfl, hs, (hq _).2 rfl, rfl⟩
  · rintro ⟨p, slash, q, e1, e2, e3, rfl⟩
    rw [(hp _).1 e1, (hq _).1 e3]
    unfold Slash at e2 hs
    rw [hs, ← e2]

/-- **C79** The text splits at the first `?` into path and query string, and each part stands for
the same bytes as before. -/
theorem C79_parts (C : Codecs) (path query : Bytes) (force : Bool) :
    ∃ p q t, getFullPath C (.b path) (.b query) force = .ok t ∧ (63 ∉ p ∧ 35 ∉ p) ∧
      t = p ++ (if query = [] then [] else b!"?" ++ q) ∧
      (∀ b slash, Pct path b → Slash force path slash → Pct p (b ++ slash)) ∧ (∀ b, Pct query b → Pct q b) := by
  refine ⟨quoteBytes pathSafePct path ++ (if force = true ∧ path.getLast? ≠ some 47 then b!"/" else []),
    quoteBytes iriSafe query, _, (C79_full_path C path query force _).2 ⟨_, _, _,
      (escaped_iff pathKeeps_iff path _).2 rfl, rfl, (escaped_iff iriKeeps_iff query _).2 rfl, rfl⟩, ?_, rfl, ?_, ?_⟩
  · have key : ∀ c ∈ quoteBytes pathSafePct path, pathChar c = true :=
      ((escaped_iff pathKeeps_iff path _).2 rfl).chars (by decide)
    constructor
    · intro hm
      rcases List.mem_append.1 hm with hm | hm
      · exact absurd (key _ hm) (by decide)
      · split at hm <;> simp at hm
    · intro hm
      rcases List.mem_append.1 hm with hm | hm
      · exact absurd (key _ hm) (by decide)
      · split at hm <;> simp at hm
  · rintro b slash hb rfl
    have h1 := ((escaped_iff pathKeeps_iff path _).2 rfl).pct (fun c => (pathKeeps_iff c).1) hb
    have app : ∀ {s t : Bytes}, Pct s t → ∀ u, 37 ∉ u → Pct (s ++ u) (t ++ u) := by
      intro s t h u hu
      induction h with
      | nil =>
        induction u with
        | nil => exact .nil
        | cons c u ih => exact .lit c (by rintro rfl; simp at hu) (ih (fun h => hu (by simp [h])))
      | lit c hc _ ih => exact .lit c hc ih
      | esc x y a c h1 h2 _ ih => exact .esc x y a c h1 h2 ih
    exact app h1 _ (by split <;> simp)
  · exact fun b hb => ((escaped_iff iriKeeps_iff query _).2 rfl).pct (fun c h => pathKeeps_uri h) hb

example : (getFullPath latin1 (.b b!"/a b%20=") (.b b!"x=?\"%22") true).toOption =
    some b!"/a%20b%20%3D/?x=?%22%22" ∧ Escaped pathChar b!"/a=" b!"/a%3D" ∧
    Pct b!"/a b%20=" b!"/a b =" := by
  refine ⟨by decide +kernel, .kept _ (by decide) (.kept _ (by decide) (.esc 61 51 68 (by decide) (by decide) (by decide) .nil)),
    .lit _ (by decide) (.lit _ (by decide) (.lit _ (by decide) (.lit _ (by decide)
      (.esc 50 48 2 0 rfl rfl (.lit _ (by decide) .nil)))))⟩

theorem Spec.Pct.append {s t : Bytes} (h : Pct s t) {s' t' : Bytes} (h' : Pct s' t') : Pct (s ++ s') (t ++ t') := by
  induction h with
  | nil => exact h'
  | lit c hc _ ih => exact .lit c hc ih
  | esc x y a c h1 h2 _ ih => exact .esc x y a c h1 h2 ih

theorem fullPath_get {C : Codecs} {path query : PyStr} {force : Bool} {t : Bytes}
    (h : getFullPath C path query force = .ok t) : fullPath C path query force = .ok t := by
  unfold getFullPath at h
  cases hf : fullPath C path query force with
  | error e => rw [hf] at h; cases h
  | ok s =>
    rw [hf] at h
    simp only [Except.ok.injEq] at h
    have hch := fullPath_chars C _ _ _ _ hf
    rw [← h]
    congr 1
    conv_lhs => rw [← List.map_id s]
    exact List.map_congr_left fun c hc => by simp [uriChar_ascii (hch c hc)]

/-- `uri_to_iri` of percent-encoded UTF-8 text. -/
theorem uriToIri_pct {t b : Bytes} {u : UStr} (ha : ∀ c ∈ t, c < 128) (h : Pct t b) (hu : Utf8 u b)
    (hs : ∀ c ∈ u, Scalar c) : uriToIri pyCodecs (Py.toU t) = .ok b := by
  unfold uriToIri
  by_cases h0 : t = []
  · subst h0; cases h; rfl
  have h1 : Py.toU t ≠ [] := by simpa [Py.toU] using h0
  rw [if_neg h1, unquoteU_ascii _ _ _ ha]
  have henc : utf8Encode u = b := Spec.Utf8.unique (utf8Encode_spec hs) hu
  by_cases h2 : 37 ∈ t
  · rw [if_pos h2, h.unquote, py_replace lookup_utf8, hu.replace]
    simp only
    rw [py_encode lookup_utf8, henc]
  · rw [if_neg h2]
    have := h.eq_of_no_pct h2
    subst this
    exact py_encode_ascii lookup_utf8 t ha

/-- **C79** `get_full_path(raw=True)`: the bytes that path and query string stand for (when they are
the UTF-8 form of some text). -/
theorem C79_raw (path query a c slash : Bytes) (force : Bool) (u : UStr) (hp : Pct path a) (hq : Pct query c)
    (hsl : Slash force path slash)
    (hu : Utf8 u (a ++ slash ++ (if query = [] then [] else b!"?" ++ c))) (hs : ∀ x ∈ u, Scalar x) :
    getFullPathRaw pyCodecs (.b path) (.b query) force =
      .ok (a ++ slash ++ (if query = [] then [] else b!"?" ++ c)) := by
  obtain ⟨p, q, t, h1, _, h2, h3, h4⟩ := C79_parts pyCodecs path query force
  have hf := fullPath_get h1
  unfold getFullPathRaw
  rw [hf]
  simp only
  refine uriToIri_pct (fun x hx => uriChar_ascii (fullPath_chars _ _ _ _ _ hf x hx)) ?_ hu hs
  rw [h2]
  refine (h3 a slash hp hsl).append ?_
  split
  · exact .nil
  · exact .lit 63 (by decide) (h4 c hq)

example : getFullPathRaw pyCodecs (.b b!"/caf%C3%A9") (.b b!"x=%20y") true = .ok (b!"/caf" ++ [0xC3, 0xA9] ++ b!"/?x= y") :=
  C79_raw b!"/caf%C3%A9" b!"x=%20y" (b!"/caf" ++ [0xC3, 0xA9]) b!"x= y" b!"/" true
    (Py.toU b!"/caf" ++ [233] ++ Py.toU b!"/?x= y")
    (.lit _ (by decide) (.lit _ (by decide) (.lit _ (by decide) (.lit _ (by decide)
      (.esc 67 51 12 3 rfl rfl (.esc 65 57 10 9 rfl rfl .nil))))))
    (.lit _ (by decide) (.lit _ (by decide) (.esc 50 48 2 0 rfl rfl (.lit _ (by decide) .nil)))) (by unfold Slash; decide)
    (utf8Encode_spec (u := Py.toU b!"/caf" ++ [233] ++ Py.toU b!"/?x= y") (by unfold Scalar; decide +kernel))
    (by unfold Scalar; decide +kernel)

/-- The raw form does not keep path and query string apart: the escaped `?` of a path comes out bare. -/
theorem C79_raw_refuted : ¬ ∀ p q p' q' : Bytes, (∀ c ∈ p ++ p', pathChar c = true) → (∀ c ∈ q ++ q', uriChar c = true) →
    getFullPathRaw pyCodecs (.b p) (.b q) false = getFullPathRaw pyCodecs (.b p') (.b q') false →
      (∀ b, Pct p b → Pct p' b) := by
  intro h
  have := h b!"/a%3Fb" [] b!"/a" b!"b" (by decide) (by decide) (by
    have e1 : (getFullPathRaw pyCodecs (.b b!"/a%3Fb") (.b []) false).toOption = some b!"/a?b" := by decide +kernel
    have e2 : (getFullPathRaw pyCodecs (.b b!"/a") (.b b!"b") false).toOption = some b!"/a?b" := by decide +kernel
    cases h1 : getFullPathRaw pyCodecs (.b b!"/a%3Fb") (.b []) false with
    | error e => rw [h1] at e1; cases e1
    | ok x =>
      cases h2 : getFullPathRaw pyCodecs (.b b!"/a") (.b b!"b") false with
      | error e => rw [h2] at e2; cases e2
      | ok y =>
        rw [h1] at e1; rw [h2] at e2
        cases e1; cases e2; rfl)
    b!"/a?b" (.lit _ (by decide) (.lit _ (by decide) (.esc 51 70 3 15 rfl rfl (.lit _ (by decide) .nil))))
  have e := this.unquote
  revert e
  decide

/-! ### C80: the path and the URI of a request -/

section
variable {ρ σ F : Type} [Producer ρ]

theorem Spec.HeadRead.full {m : Message} {host port : Bytes} {type : Option Bytes} {qs : List (UStr × UStr)} {r : Req ρ σ F}
    (C : Codecs) (h : HeadRead m host port type qs r) (hp : ∀ c ∈ m.path, pathChar c = true)
    (hq : ∀ c ∈ m.query, uriChar c = true) : r.getFullPath C false false = .ok m.pathQuery := by
  obtain ⟨hd, hi, _⟩ := h.info
  unfold Req.getFullPath Req.getPath
  rw [hi, h.path]
  simp only [Option.getD_some, Bool.false_eq_true, if_false]
  refine (C79_full_path C m.path m.query false _).2 ⟨_, [], _, .kept_all hp, by simp [Slash], .kept_all hq, ?_⟩
  simp [Message.pathQuery]

/-- **C80.**  For every well-formed request whose path and query string need no escaping,
`get_full_path()` returns path and query string as they were sent. -/
theorem C80_full_path {L : Lawful ρ} {E : Env ρ σ F} {S : Settings} {p : ρ} {m : Message} {host port : Bytes}
    {type : Option Bytes} {ps : List (Bytes × Bytes)} {qs : List (UStr × UStr)}
    (h : Arrives L E.C S p m host port type ps qs) (hp : ∀ c ∈ m.path, pathChar c = true)
    (hq : ∀ c ∈ m.query, uriChar c = true) :
    ∃ r0 r' : Req ρ σ F, Req.new E.C S p = .ok r0 ∧
      parseRequestHeader E S r0 = (.ok (), charsetAfter S ps, r') ∧
      r'.getFullPath E.C false false = .ok m.pathQuery ∧
      r'.schemeHost = (if m.scheme = [] then b!"UNKNOWN" else Py.lower m.scheme) ++ b!"://" ++ host ∧
      r'.getUri E.C false = .ok ((if m.scheme = [] then b!"UNKNOWN" else Py.lower m.scheme) ++ b!"://" ++ host ++
        m.pathQuery) := by
  obtain ⟨r0, r', h1, h2, h3⟩ := C76_header (σ := σ) (F := F) h
  refine ⟨r0, r', h1, h2, h3.full E.C hp hq, by unfold Req.schemeHost; rw [h3.scheme, h3.host]; rfl, ?_⟩
  unfold Req.getUri
  rw [h3.full E.C hp hq, h3.scheme, h3.host]
  rfl

/-- **C80** (partial) `get_uri()` is the request target when that is in absolute form, in lower case up
to the path, and names no port and no trailing dot.  Missing: a target with a port
(`C80_port_refuted`) and one that begins with the path. -/
theorem C80_uri_partial {L : Lawful ρ} {E : Env ρ σ F} {S : Settings} {p : ρ} {m : Message} {host : Bytes}
    {type : Option Bytes} {ps : List (Bytes × Bytes)} {qs : List (UStr × UStr)}
    (h : Arrives L E.C S p m host [] type ps qs) (hp : ∀ c ∈ m.path, pathChar c = true)
    (hq : ∀ c ∈ m.query, uriChar c = true) (hs : m.scheme ≠ []) (hl : Py.lower m.scheme = m.scheme)
    (ha : Py.lower m.authority = m.authority) (hdot : m.authority.getLast? ≠ some 46) :
    ∃ r0 r' : Req ρ σ F, Req.new E.C S p = .ok r0 ∧
      parseRequestHeader E S r0 = (.ok (), charsetAfter S ps, r') ∧ r'.getUri E.C false = .ok m.target := by
  obtain ⟨r0, r', h1, h2, _, _, h4⟩ := C80_full_path (σ := σ) (F := F) h hp hq
  refine ⟨r0, r', h1, h2, ?_⟩
  rw [h4]
  obtain ⟨t, d, ht, hf, hd⟩ := h.host
  have ht' : t = m.authority := by
    rcases ht with ⟨_, h⟩ | ⟨h, _⟩
    · exact h
    · exact absurd h hs
  subst ht'
  rw [ha] at hf
  have hd2 : m.authority = d := by
    rcases hf.2.2 with ⟨_, h⟩ | ⟨h, _⟩
    · exact h
    · exact absurd rfl h
  have hd3 : host = m.authority := by
    rcases hd with hd | ⟨hd, _⟩
    · exfalso
      apply hdot
      rw [hd2, hd]
      simp
    · rw [hd2, hd]
  unfold Message.target
  rw [if_neg hs, if_neg hs, hl, hd3, Message.pathQuery]
  simp only [List.append_assoc]

end

/-- A request for a server at a port. -/
def portMessage (port : Bytes) : Message where
  method := b!"GET"
  scheme := b!"http"
  authority := b!"h" ++ [58] ++ port
  path := b!"/"
  proto := b!"HTTP/1.1"
  headers := [(b!"A", b!"b")]

theorem portMessage_arrives (cs : List Bytes) (port : Bytes) (hp : ∀ c ∈ port, digitByte c) (h0 : port ≠ [])
    (h : cs.flatten = (portMessage port).text) :
    Arrives Source.lawful pyCodecs {} ⟨cs⟩ (portMessage port) b!"h" port none [] [] where
  size := by decide
  inv := trivial
  ok :=
    { method := by simp only [portMessage]; decide +kernel
      proto := by simp only [portMessage]; decide +kernel
      scheme := by simp only [portMessage]; decide +kernel
      path := by simp only [portMessage]; decide +kernel
      slash := ⟨[], rfl, by decide⟩
      query := by simp [portMessage]
      names := by simp only [portMessage]; decide +kernel
      values := by
        have : ∀ p ∈ [(b!"A", b!"b")], (∀ c ∈ p.2, Visible c ∨ c = 32 ∨ c = 9) ∧
          (∀ c, p.2.head? = some c → Visible c) ∧ (∀ c, p.2.getLast? = some c → Visible c) := by decide +kernel
        intro p hp
        obtain ⟨h1, h2, h3⟩ := this p hp
        exact ⟨h1, fun c hc => hc.elim (h2 c) (h3 c)⟩
      some := by simp [portMessage] }
  text := h
  host := ⟨b!"h" ++ [58] ++ port, b!"h", .inl ⟨by simp [portMessage], rfl⟩,
    ⟨.inl ⟨by decide, by unfold nameByte; decide +kernel⟩, hp, .inr ⟨h0, by
      have : Py.lower port = port := by
        conv_rhs => rw [← List.map_id port]
        refine List.map_congr_left fun c hc => ?_
        have h1 := hp c hc
        have := forall_u8 (fun c => decide (c ∈ b!"0123456789" → Py.lowerByte c = c)) (by decide +kernel) c
        exact of_decide_eq_true this h1
      show Py.lower (b!"h" ++ [58] ++ port) = _
      rw [show Py.lower (b!"h" ++ [58] ++ port) = b!"h" ++ [58] ++ Py.lower port by simp only [Py.lower, List.map_append]; rfl, this]⟩⟩, .inr ⟨rfl, fun x hx => by
        have := congrArg List.getLast? hx
        simp at this⟩⟩
  content := ⟨by simp only [Message.header, portMessage]; decide +kernel, rfl⟩
  codec0 := py_asciiCodec (e := .latin1) (by decide +kernel)
  codec := py_asciiCodec (e := .latin1) (by decide +kernel)
  query := ⟨[], .nil, .nil⟩
  limit := by intro l hl; cases hl; exact .inr ⟨by decide, by simp only [portMessage]; decide +kernel⟩

/-- **C80** Requests for different ports of a host have the same `get_uri()`, however they are cut
into chunks. -/
theorem C80_port_refuted (E : Env Source Unit Unit) (hE : E.C = pyCodecs) (port : Bytes)
    (hp : ∀ c ∈ port, digitByte c) (h0 : port ≠ []) (cs : List Bytes) (hc : cs.flatten = (portMessage port).text) :
    ∃ r0 r S', Req.new E.C {} ⟨cs⟩ = .ok r0 ∧ parseRequestHeader E {} r0 = (.ok (), S', r) ∧
      r.getUri E.C false = .ok b!"http://h/" ∧ b!"http://h/" ≠ (portMessage port).target := by
  obtain ⟨r0, r, h1, h2, _, _, h3⟩ := C80_full_path (E := E) (hE ▸ portMessage_arrives cs port hp h0 hc)
    (by simp only [portMessage]; decide) (by simp [portMessage])
  refine ⟨r0, r, _, h1, h2, ?_, ?_⟩
  · rw [h3]; rfl
  · simp [portMessage, Message.target]

example : (portMessage b!"8080").text = b!"GET http://h:8080/ HTTP/1.1\r\nA: b\r\n\r\n" := by decide +kernel

/-! ### C81: `urlquote` and `urlunquote` -/

theorem quoteKeeps_iff (safe : Bytes) (c : UInt8) : quoteKeeps safe c ↔ quoteChar safe c = true := by
  unfold quoteKeeps quoteChar
  have := forall_u8 (fun c => decide (alwaysSafe c = true ↔ (97 ≤ c ∧ c ≤ 122) ∨ (65 ≤ c ∧ c ≤ 90) ∨ (48 ≤ c ∧ c ≤ 57) ∨
    c ∈ b!"_.-")) (by decide +kernel) c
  rw [of_decide_eq_true this, decide_eq_true_eq]
  simp only [or_assoc]

theorem urlquote_text {safe : Bytes} {s : PyStr} {u : UStr} {b : Bytes} (h : TextOf s u b) :
    urlquote pyCodecs safe s = .ok (quoteBytes safe b) := by
  cases s with
  | b s => obtain ⟨rfl, _⟩ := h; rfl
  | u s =>
    obtain ⟨rfl, h1, h2⟩ := h
    unfold urlquote
    by_cases h0 : s = []
    · subst h0; cases h1; rfl
    · simp only [h0, if_false, py_encode lookup_utf8, Spec.Utf8.unique (utf8Encode_spec h2) h1]

theorem unquoteU_pct {t b : Bytes} {u : UStr} (ha : ∀ c ∈ t, c < 128) (h : Pct t b) (hu : Utf8 u b) :
    unquoteU pyCodecs b!"utf-8" (Py.toU t) = .ok u := by
  rw [unquoteU_ascii _ _ _ ha]
  split
  · rw [h.unquote, py_replace lookup_utf8, hu.replace]
  · rename_i hn
    have e := h.eq_of_no_pct hn
    subst e
    rw [← utf8DecodeReplace_ascii ha, hu.replace]

/-- **C81.**  `urlquote` of a text (`unicode`, or its UTF-8 form) escapes exactly the bytes of its
UTF-8 form other than letters, digits, `_.-` and the safe ones, and `urlunquote` undoes it. -/
theorem C81_quote (safe : Bytes) (s : PyStr) (u : UStr) (b : Bytes) (h : TextOf s u b) :
    ∃ t, urlquote pyCodecs safe s = .ok t ∧ Escaped (quoteChar safe) b t ∧
      (37 ∉ safe → urlunquote pyCodecs (.u (Py.toU t)) = .ok (.u u) ∧
        urlunquote pyCodecs (.b t) = .ok (if 37 ∈ t then .u u else .b t)) := by
  refine ⟨_, urlquote_text h, (escaped_iff (quoteKeeps_iff safe) _ _).2 rfl, fun h37 => ?_⟩
  have hu : Utf8 u b := by
    cases s with
    | b s => exact h.2
    | u s => exact h.2.1
  have hp : Pct (quoteBytes safe b) b := quoteBytes_pct (.inl h37)
  refine ⟨by unfold urlunquote; simp only [unquoteU_pct (quoteBytes_ascii safe b) hp hu], ?_⟩
  have ha : Py.isAscii (quoteBytes safe b) = true := (isAscii_iff _).2 (quoteBytes_ascii safe b)
  simp only [urlunquote, ha, Bool.true_eq_false, if_false]
  split
  · rw [hp.unquote, py_replace lookup_utf8, hu.replace]
  · rfl

theorem replace_none {a b : UInt8} {s : Bytes} (h : a ∉ s) : Py.replaceChar a b s = s := by
  unfold Py.replaceChar
  conv_rhs => rw [← List.map_id s]
  refine List.map_congr_left fun c hc => ?_
  have : c ≠ a := by rintro rfl; exact h hc
  simp [this]

theorem replace_back {a b : UInt8} {s : Bytes} (h : b ∉ s) : Py.replaceChar b a (Py.replaceChar a b s) = s := by
  unfold Py.replaceChar
  rw [List.map_map]
  conv_rhs => rw [← List.map_id s]
  refine List.map_congr_left fun c hc => ?_
  have : c ≠ b := by rintro rfl; exact h hc
  by_cases hca : c = a
  · simp [hca]
  · simp [hca, this]

theorem quoteBytes_noplus {safe : Bytes} (h : 43 ∉ safe) (s : Bytes) : 43 ∉ quoteBytes safe s := by
  intro hm
  rcases quoteBytes_chars safe s 43 hm with h1 | h1
  · rcases h1 with h1 | h1
    · exact absurd h1 (by decide)
    · exact h h1.1
  · exact absurd h1 (by decide)

/-- **C81** `urlquote_plus` and `urlunquote_plus`: when `%` and `+` are not among the safe characters,
the text comes back; the result contains no space unless the caller declares it safe. -/
theorem C81_quote_plus (safe : Bytes) (s : PyStr) (u : UStr) (b : Bytes) (h : TextOf s u b) (h37 : 37 ∉ safe)
    (h43 : 43 ∉ safe) :
    ∃ t, urlquotePlus pyCodecs safe s = .ok t ∧ Pct (Py.replaceChar 43 32 t) b ∧ (∀ c ∈ t, c < 128) ∧
      urlunquotePlus pyCodecs (.u (Py.toU t)) = .ok (.u u) ∧ urlunquotePlus pyCodecs (.b t) = .ok (.u u) := by
  have hu : Utf8 u b := by
    cases s with
    | b s => exact h.2
    | u s => exact h.2.1
  have key : ∀ t, Pct (Py.replaceChar 43 32 t) b → (∀ c ∈ t, c < 128) →
      urlunquotePlus pyCodecs (.u (Py.toU t)) = .ok (.u u) ∧ urlunquotePlus pyCodecs (.b t) = .ok (.u u) := by
    intro t hp ha
    have e := toU_replace 43 32 t
    rw [show ((43 : UInt8).toNat) = 43 from rfl, show ((32 : UInt8).toNat) = 32 from rfl] at e
    have h1 : urlunquotePlus pyCodecs (.u (Py.toU t)) = .ok (.u u) := by
      simp only [urlunquotePlus, urlunquote, e]
      simp only [unquoteU_pct (replace_ascii ha) hp hu]
    refine ⟨h1, ?_⟩
    have h2 : Py.isAscii t = true := (isAscii_iff t).2 ha
    unfold urlunquotePlus
    simp only [h2, Bool.true_eq_false, if_false]
    exact h1
  unfold urlquotePlus
  split
  · have hs : 43 ∉ safe ++ b!" " := by simpa using h43
    have hs2 : 37 ∉ safe ++ b!" " := by simpa using h37
    rw [urlquote_text h]
    have e1 : Pct (Py.replaceChar 43 32 (Py.replaceChar 32 43 (quoteBytes (safe ++ b!" ") b))) b := by
      rw [replace_back (quoteBytes_noplus hs b)]
      exact quoteBytes_pct (.inl hs2)
    have e2 : ∀ c ∈ Py.replaceChar 32 43 (quoteBytes (safe ++ b!" ") b), c < 128 := by
      intro c hc
      obtain ⟨d, hd, rfl⟩ := List.mem_map.1 hc
      split
      · decide
      · exact quoteBytes_ascii _ _ d hd
    exact ⟨_, rfl, e1, e2, key _ e1 e2⟩
  · rw [urlquote_text h]
    have e1 : Pct (Py.replaceChar 43 32 (quoteBytes safe b)) b := by
      rw [replace_none (quoteBytes_noplus h43 b)]
      exact quoteBytes_pct (.inl h37)
    exact ⟨_, rfl, e1, quoteBytes_ascii _ _, key _ e1 (quoteBytes_ascii _ _)⟩

theorem utf8_space {u : UStr} {b : Bytes} (h : Utf8 u b) (hu : 32 ∉ u) : 32 ∉ b := by
  induction h with
  | nil => simp
  | cons hc _ ih =>
    simp only [List.mem_cons, not_or] at hu
    rw [List.mem_append, not_or]
    refine ⟨?_, ih hu.2⟩
    have k : ∀ x : UInt8, x.toNat ≠ 32 → (32 : UInt8) ≠ x := by
      rintro x hx rfl
      exact hx rfl
    have kc : ∀ {x : UInt8} {v : Nat}, Cont x v → (32 : UInt8) ≠ x := by
      intro x v hx
      refine k x ?_
      unfold Cont at hx
      omega
    cases hc with
    | one h1 h2 => simpa using k _ (by omega)
    | two _ _ h3 h4 _ => simpa using ⟨k _ (by omega), kc h4⟩
    | three _ _ h3 h4 h5 _ => simpa using ⟨k _ (by omega), kc h4, kc h5⟩
    | four _ _ _ h3 h4 h5 h6 _ => simpa using ⟨k _ (by omega), kc h4, kc h5, kc h6⟩

/-- **C81, how `urlquote_plus` writes a text**: a space is a plus, the safe characters, letters, digits and `_.-` are
themselves, every other byte is escaped; whatever characters are declared safe. -/
theorem C81_plus_exact (safe : Bytes) (s : PyStr) (u : UStr) (b : Bytes) (h : TextOf s u b) :
    ∃ v, Escaped (quoteChar (safe ++ b!" ")) b v ∧
      urlquotePlus pyCodecs safe s = .ok (v.map fun c => if c = 32 then 43 else c) := by
  refine ⟨quoteBytes (safe ++ b!" ") b, (escaped_iff (quoteKeeps_iff _) _ _).2 rfl, ?_⟩
  unfold urlquotePlus
  by_cases hs : s.hasSpace = true
  · rw [if_pos hs, urlquote_text h]
    rfl
  · rw [if_neg hs, urlquote_text h]
    have hb : 32 ∉ b := by
      cases s with
      | b s => rw [← h.1]; simpa [PyStr.hasSpace] using hs
      | u s => exact utf8_space h.2.1 (by rw [← h.1]; simpa [PyStr.hasSpace] using hs)
    have e : ∀ t : Bytes, 32 ∉ t → quoteBytes (safe ++ b!" ") t = quoteBytes safe t := by
      intro t ht
      unfold quoteBytes
      induction t with
      | nil => rfl
      | cons c t ih =>
        simp only [List.mem_cons, not_or] at ht
        have hc : c ≠ 32 := fun h => ht.1 h.symm
        simp only [List.flatMap_cons, ih ht.2]
        congr 1
        unfold quoteByte
        simp [hc]
    have n : 32 ∉ quoteBytes (safe ++ b!" ") b := by
      intro hm
      rw [e b hb] at hm
      unfold quoteBytes at hm
      obtain ⟨c, hc, hm⟩ := List.mem_flatMap.1 hm
      unfold quoteByte at hm
      split at hm
      · simp at hm; exact hb (hm ▸ hc)
      · have key := forall_u8 (fun c => !decide ((32 : UInt8) ∈ [37, hexDigit (c / 16), hexDigit (c % 16)])) (by decide +kernel) c
        rw [Bool.not_eq_true', decide_eq_false_iff_not] at key
        exact key hm
    rw [← e b hb]
    exact congrArg Except.ok (replace_none (a := 32) (b := 43) n).symm

example : (∃ b, TextOf (.u [32, 233, 38]) [32, 233, 38] b) ∧
    (urlquotePlus pyCodecs b!"&" (.u [32, 233, 38])).toOption = some b!"+%C3%A9&" := by
  refine ⟨⟨[32, 0xC3, 0xA9, 38], rfl, (utf8Decode_iff _ _).1 (by decide +kernel), by unfold Scalar; decide⟩, ?_⟩
  decide +kernel

/-- **C81** With `+` declared safe, `urlunquote_plus` does not undo `urlquote_plus`. -/
theorem C81_plus_needed : ¬ ∀ (safe : Bytes) (u : UStr) (t : Bytes), 37 ∉ safe → (∀ c ∈ u, Scalar c) →
    urlquotePlus pyCodecs safe (.u u) = .ok t → urlunquotePlus pyCodecs (.u (Py.toU t)) = .ok (.u u) := by
  intro h
  have := h b!"+" (Py.toU b!"a+b") b!"a+b" (by decide) (by unfold Scalar; decide +kernel) (by
    have e : TextOf (.u (Py.toU b!"a+b")) (Py.toU b!"a+b") b!"a+b" :=
      ⟨rfl, utf8_ascii (by decide), by unfold Scalar; decide +kernel⟩
    unfold urlquotePlus
    rw [if_neg (by decide), urlquote_text e]
    rfl)
  have e : unquoteU pyCodecs b!"utf-8" (Py.toU b!"a b") = .ok (Py.toU b!"a b") := by
    rw [unquoteU, if_neg (by decide)]
  simp only [urlunquotePlus, urlunquote, show Py.replaceChar 43 32 (Py.toU b!"a+b") = Py.toU b!"a b" by decide, e,
    Except.ok.injEq, PyStr.u.injEq] at this
  exact absurd this (by decide)

/-- **C81** Byte strings given to `urlunquote`: anything outside ASCII raises `UnicodeDecodeError`; without
`%` the argument is returned. -/
theorem C81_unquote_bytes (C : Codecs) (s : Bytes) :
    ((∃ c ∈ s, 128 ≤ c) → urlunquote C (.b s) = .error .unicodeDecodeError ∧
      urlunquotePlus C (.b s) = .error .unicodeDecodeError) ∧
    ((∀ c ∈ s, c < 128 ∧ c ≠ 37) → urlunquote C (.b s) = .ok (.b s)) := by
  constructor
  · rintro ⟨c, hc, h⟩
    have : Py.isAscii s = false := by
      rw [← Bool.not_eq_true, isAscii_iff]
      exact fun ha => absurd (ha c hc) (UInt8.not_lt.2 h)
    unfold urlunquote urlunquotePlus
    simp only [this, if_true, and_self]
  · intro h
    have h1 : Py.isAscii s = true := (isAscii_iff s).2 fun c hc => (h c hc).1
    have h2 : 37 ∉ s := fun hm => (h 37 hm).2 rfl
    unfold urlunquote
    simp [h1, h2]

example : (urlquote pyCodecs b!"/" (.u (Py.toU b!"/a b" ++ [8364]))).toOption = some b!"/a%20b%E2%82%AC" ∧
    (urlquotePlus pyCodecs [] (.u (Py.toU b!"/a b+" ++ [8364]))).toOption = some b!"%2Fa+b%2B%E2%82%AC" ∧
    TextOf (.u (Py.toU b!"/a b" ++ [8364])) (Py.toU b!"/a b" ++ [8364]) (b!"/a b" ++ [0xE2, 0x82, 0xAC]) := by
  refine ⟨by decide +kernel, by decide +kernel, rfl, ?_, by unfold Scalar; decide +kernel⟩
  exact utf8Encode_spec (u := Py.toU b!"/a b" ++ [8364]) (by unfold Scalar; decide +kernel)

/-! ### C82: `urlencode` -/

theorem urlquotePlus_form {s : PyStr} {u : UStr} {b : Bytes} (h : TextOf s u b) :
    ∃ t, urlquotePlus pyCodecs [] s = .ok t ∧ FormEnc t b := by
  unfold urlquotePlus
  split
  · rw [urlquote_text h]
    exact ⟨_, rfl, form_plus (quoteBytes_form (by decide) b)⟩
  · rw [urlquote_text h]
    exact ⟨_, rfl, quoteBytes_form (by simp) b⟩

theorem Spec.TextOf.utf8 {s : PyStr} {u : UStr} {b : Bytes} (h : TextOf s u b) : Utf8 u b := by
  cases s with
  | b s => exact h.2
  | u s => exact h.2.1

theorem py_dec {u : UStr} {b : Bytes} (h : Utf8 u b) : pyCodecs.decodeReplace b!"utf-8" b = .ok u := by
  rw [py_replace lookup_utf8, h.replace]

theorem nativeItems_text {items : List (Option PyStr)} {us : List UStr} (h : List.Forall₂ ItemText items us) :
    ∃ bs, nativeItems items = .ok bs ∧ List.Forall₂ Utf8 us bs := by
  induction h with
  | nil => exact ⟨[], rfl, .nil⟩
  | @cons i u items us hi _ ih =>
    obtain ⟨bs, h1, h2⟩ := ih
    cases i with
    | none => cases hi
    | some s =>
      cases s with
      | b s => exact ⟨s :: bs, by simp [nativeItems, nativeStr, h1], .cons hi h2⟩
      | u s =>
        obtain ⟨rfl, ha⟩ := hi
        have h3 : s.all (· < 128) = true := by simpa using ha
        refine ⟨s.map UInt8.ofNat :: bs, by simp only [nativeItems, nativeStr, h3, if_true, h1], .cons ?_ h2⟩
        have e : Py.toU (s.map UInt8.ofNat) = s := by
          simp only [Py.toU, List.map_map]
          conv_rhs => rw [← List.map_id s]
          refine List.map_congr_left fun c hc => ?_
          have := ha c hc
          simp only [Function.comp, id]
          exact toNat_ofNat (by omega)
        have := utf8_ascii (b := s.map UInt8.ofNat) (by
          intro c hc
          obtain ⟨n, hn, rfl⟩ := List.mem_map.1 hc
          have := ha n hn
          rw [UInt8.lt_iff_toNat_lt, toNat_ofNat (by omega)]
          exact this)
        rw [e] at this
        exact this

/-- A list of values is written with one pair each only if this is asked for. -/
def Spec.Listless : List (PyStr × QVal) → Prop := fun q => ∀ p ∈ q, ∃ s, p.2 = .str s

theorem encodeParams_text {q : List (PyStr × QVal)} {ps : List (UStr × UStr)} (h : QueryText q ps) (doseq : Bool)
    (hd : doseq = true ∨ Listless q) :
    ∃ pr ts, prepareAll q = .ok pr ∧ encodeParams pyCodecs doseq pr = .ok ts ∧
      Pieces (fun b u => pyCodecs.decodeReplace b!"utf-8" b = .ok u) ps ts := by
  induction h with
  | nil => exact ⟨[], [], rfl, rfl, .nil⟩
  | @str k ku kb v vu q ps hk hv _ ih =>
    obtain ⟨pr, ts, h1, h2, h3⟩ := ih (hd.imp id fun h p hp => h p (by simp [hp]))
    obtain ⟨kt, k1, k2⟩ := urlquotePlus_form hk
    refine ⟨(k, .one v) :: pr, (kt ++ 61 :: quotePlus v) :: ts, by simp only [prepareAll, prepareValue, h1], ?_,
      .cons k2 (quotePlus_form v) (py_dec hk.utf8) (py_dec hv) h3⟩
    simp only [encodeParams, encodeParam, k1, h2, List.singleton_append]
  | @list k ku kb items us q ps hk hi _ ih =>
    have hd' : doseq = true := by
      rcases hd with hd | hd
      · exact hd
      · obtain ⟨s, hs⟩ := hd _ (List.mem_cons_self ..)
        cases hs
    subst hd'
    obtain ⟨pr, ts, h1, h2, h3⟩ := ih (.inl rfl)
    obtain ⟨kt, k1, k2⟩ := urlquotePlus_form hk
    obtain ⟨bs, b1, b2⟩ := nativeItems_text hi
    refine ⟨(k, .many bs) :: pr, bs.map (fun v => kt ++ 61 :: quotePlus v) ++ ts,
      by simp only [prepareAll, prepareValue, b1, h1], by simp only [encodeParams, encodeParam, k1, h2, if_true], ?_⟩
    clear b1 hi h1 h2
    induction b2 with
    | nil => exact h3
    | cons hb _ ih => exact .cons k2 (quotePlus_form _) (py_dec hk.utf8) (py_dec hb) ih

/-- **C82** (partial) `urlencode` of names and values that are byte strings in UTF-8 (names may be
`unicode`; in lists also ASCII `unicode`, when `doseq` is set) succeeds, and `limited_parse_qsl` reads the
same pairs back in order.  Missing: `unicode` values (`C82_unicode_refuted`) and lists without
`doseq` (`C82_list_refuted`). -/
theorem C82_partial {q : List (PyStr × QVal)} {ps : List (UStr × UStr)} (h : QueryText q ps) (doseq : Bool)
    (hd : doseq = true ∨ Listless q) :
    ∃ t, urlencode pyCodecs q doseq = .ok t ∧ Written pyCodecs b!"utf-8" ps t ∧
      limitedParseQsl pyCodecs (Py.toU t) true b!"utf-8" none = .ok ps := by
  obtain ⟨pr, ts, h1, h2, h3⟩ := encodeParams_text h doseq hd
  refine ⟨joinAmp ts, by simp only [urlencode, h1, h2], ⟨ts, h3, joinAmp_joined ts⟩, ?_⟩
  exact C52_parse pyCodecs _ (py_asciiCompat lookup_utf8) _ _ _ h3 (joinAmp_joined ts)

/-- **C82** A `unicode` value is treated as the list of its characters. -/
theorem C82_unicode_split (C : Codecs) (k : PyStr) (s : UStr) (q : List (PyStr × QVal)) (doseq : Bool) :
    urlencode C ((k, .str (.u s)) :: q) doseq =
      urlencode C ((k, .list (s.map fun c => some (.u [c]))) :: q) doseq := rfl

/-- **C82** So `urlencode` of `unicode` values does not keep them. -/
theorem C82_unicode_refuted :
    ¬ ∀ (k v : Bytes) (doseq : Bool), (∀ c ∈ k ++ v, c < 128) →
      urlencode pyCodecs [(.b k, .str (.u (Py.toU v)))] doseq = urlencode pyCodecs [(.b k, .str (.b v))] doseq := by
  intro h
  have := congrArg Except.toOption (h b!"k" b!"ab" true (by decide))
  revert this
  decide +kernel

example : (urlencode pyCodecs [(.b b!"k", .str (.u (Py.toU b!"ab")))] true).toOption = some b!"k=a&k=b" ∧
    (urlencode pyCodecs [(.b b!"k", .str (.u (Py.toU b!"ab")))] false).toOption =
      some b!"k=%5B%27a%27%2C+%27b%27%5D" := by decide +kernel

/-- **C82** A list of values without `doseq` is written as Python prints it. -/
theorem C82_list_refuted :
    ¬ ∀ (k : Bytes) (vs : List Bytes) (t : Bytes), (∀ c ∈ k ++ vs.flatten, c < 128) →
      urlencode pyCodecs [(.b k, .list (vs.map fun v => some (.b v)))] false = .ok t →
      limitedParseQsl pyCodecs (Py.toU t) true b!"utf-8" none = .ok (vs.map fun v => (Py.toU k, Py.toU v)) := by
  intro h
  have e : (urlencode pyCodecs [(.b b!"k", .list [some (.b b!"v")])] false).toOption = some b!"k=%5B%27v%27%5D" := by
    decide +kernel
  cases hu : urlencode pyCodecs [(.b b!"k", .list [some (.b b!"v")])] false with
  | error x => rw [hu] at e; cases e
  | ok t =>
    have := congrArg Except.toOption (h b!"k" [b!"v"] t (by decide) hu)
    rw [hu] at e
    cases e
    revert this
    decide +kernel

theorem nativeItems_none {items : List (Option PyStr)} {bs : List Bytes} (h : nativeItems items = .ok bs) :
    none ∉ items := by
  induction items generalizing bs with
  | nil => simp
  | cons i items ih =>
    cases i with
    | none => cases h
    | some s =>
      unfold nativeItems at h
      split at h
      · cases h
      · split at h
        · cases h
        · rename_i hr
          simpa using ih hr

/-- **C82** `urlencode` never writes `None`: if it succeeds there was none. -/
theorem C82_none (C : Codecs) (q : List (PyStr × QVal)) (doseq : Bool) (t : Bytes)
    (h : urlencode C q doseq = .ok t) : ∀ p ∈ q, NoNone p.2 := by
  have key : ∀ q pr, prepareAll q = .ok pr → ∀ p ∈ q, NoNone p.2 := by
    intro q
    induction q with
    | nil => simp
    | cons p q ih =>
      obtain ⟨k, v⟩ := p
      intro pr hpr
      unfold prepareAll at hpr
      split at hpr
      · cases hpr
      · rename_i hv
        split at hpr
        · cases hpr
        · rename_i hr
          intro p hp
          rcases List.mem_cons.1 hp with rfl | hp
          · cases v with
            | none => cases hv
            | str s => trivial
            | list items =>
              simp only [prepareValue] at hv
              split at hv
              · cases hv
              · rename_i hi
                exact nativeItems_none hi
          · exact ih _ hr p hp
  unfold urlencode at h
  split at h
  · cases h
  · rename_i hp
    exact key _ _ hp

/-- **C82** `None` raises `TypeError`, after any encodable values before it. -/
theorem C82_none_error {q : List (PyStr × QVal)} {ps : List (UStr × UStr)} (h : QueryText q ps) (doseq : Bool)
    (k : PyStr) (v : QVal) (hv : v = .none ∨ ∃ items us rest, List.Forall₂ ItemText items us ∧ v = .list (items ++ none :: rest))
    (rest : List (PyStr × QVal)) :
    urlencode pyCodecs (q ++ (k, v) :: rest) doseq = .error .typeError := by
  have hpv : prepareValue v = .error .typeError := by
    rcases hv with rfl | ⟨items, us, r, hi, rfl⟩
    · rfl
    · have : nativeItems (items ++ none :: r) = .error .typeError := by
        induction hi with
        | nil => rfl
        | @cons i u items us hi hr ih =>
          obtain ⟨bs, hb, _⟩ := nativeItems_text (.cons hi .nil : List.Forall₂ ItemText [i] [u])
          cases i with
          | none => cases hi
          | some s =>
            simp only [List.cons_append, nativeItems, ih]
            simp only [nativeItems] at hb
            split at hb
            · cases hb
            · rfl
      simp only [prepareValue, this]
  have : prepareAll (q ++ (k, v) :: rest) = .error .typeError := by
    induction h with
    | nil => simp only [List.nil_append, prepareAll, hpv]
    | str _ _ _ ih => simp only [List.cons_append, prepareAll, prepareValue, ih]
    | list _ hi _ ih =>
      obtain ⟨bs, hb, _⟩ := nativeItems_text hi
      simp only [List.cons_append, prepareAll, prepareValue, hb, ih]
  simp only [urlencode, this]

example : QueryText [(.u [233], .str (.b b!"a b")), (.b b!"k", .list [some (.b b!"&"), some (.u (Py.toU b!"x"))])]
    [([233], Py.toU b!"a b"), (Py.toU b!"k", Py.toU b!"&"), (Py.toU b!"k", Py.toU b!"x")] :=
  .str (kb := [0xC3, 0xA9]) ⟨rfl, utf8Encode_spec (u := [233]) (by unfold Scalar; decide +kernel), by unfold Scalar; decide +kernel⟩
    (utf8_ascii (by decide))
    (.list (us := [Py.toU b!"&", Py.toU b!"x"]) (kb := b!"k") (ps := []) ⟨rfl, utf8_ascii (by decide)⟩
      (.cons (utf8_ascii (b := b!"&") (by decide)) (.cons ⟨rfl, by decide⟩ .nil)) .nil)

example : (urlencode pyCodecs [(.u [233], .str (.b b!"a b")), (.b b!"k", .list [some (.b b!"&"), some (.u (Py.toU b!"x"))])]
    true).toOption = some b!"%C3%A9=a+b&k=%26&k=x" := by decide +kernel

end Verif
