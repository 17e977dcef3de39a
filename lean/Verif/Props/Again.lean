import Verif.Props.Stale
/-!
# C147: a request whose header was refused is not accepted by parsing again

`parse_request_header` sets `_request_header_parsed` before it looks at what it has read, so after an error the second call
returns without doing anything, and `parse()` goes on to the body.
-/

namespace Verif
open Spec

namespace Spec

/-- The request shows nothing of what was sent: no method, host, path or headers, and nothing in `GET`, `POST`, `FILES`. -/
structure ShowsNothing {ρ σ F : Type} (r : Req ρ σ F) : Prop where
  method : r.method = none
  scheme : r.scheme = none
  host : r.host = none
  port : r.port = none
  path : r.path = none
  proto : r.proto = none
  contentType : r.contentType = some none
  info : r.info = some {}
  get : r.get = some ⟨[], true⟩
  post : ∃ b, r.post = some (.query ⟨[], b⟩)
  files : r.files = some []

end Spec

variable {ρ σ F : Type} [Producer ρ]

/-- `ShowsNothing`, and no results wait for being shown. -/
structure Blank (r : Req ρ σ F) : Prop extends ShowsNothing r where
  headerParsed : r.headerParsed = true
  post_ : ∀ d, r.post_ = some d → d = .query ⟨[], false⟩
  files_ : ∀ d, r.files_ = some d → d = []

theorem applyContentType_method (C : Codecs) (h : MVD Bytes) (S : Settings) (r : Req ρ σ F) :
    (applyContentType C h S r).2.2.method = r.method := by
  unfold applyContentType
  split
  · rfl
  · split
    · rfl
    · simp only
      split <;> rfl

theorem applyQuery_method (C : Codecs) (q : Bytes) (h : MVD Bytes) (S : Settings) (r : Req ρ σ F) :
    (applyQuery C q h S r).2.2.method = r.method := by
  unfold applyQuery
  split
  · rfl
  · simp only
    split <;> rfl

/-- If nothing of the header is taken, nothing is changed. -/
theorem applyHeader_untaken {E : Env ρ σ F} {head : Bytes} {S : Settings} {r : Req ρ σ F}
    (h : (applyHeader E head S r).2.2.method = none) :
    ∃ e, applyHeader E head S r = (.error e, S, r) := by
  unfold applyHeader at h ⊢
  cases h1 : parseRequestHeaders (head ++ b!"\r\n") with
  | error e => exact ⟨e, by simp⟩
  | ok lh =>
    obtain ⟨line, hd⟩ := lh
    simp only [h1] at h ⊢
    cases h2 : parseRequestLine E.up line with
    | error e => exact ⟨e, by simp⟩
    | ok l =>
      simp only [h2] at h ⊢
      cases h3 : hostText l hd with
      | error e => exact ⟨e, by simp⟩
      | ok hh =>
        obtain ⟨host, hd'⟩ := hh
        simp only [h3] at h ⊢
        have key : ∀ r2 : Req ρ σ F, r2.method = some l.method → (match applyContentType E.C hd' S r2 with
            | (.error e, S, r) => (.error e, S, r)
            | (.ok (), S, r) => applyQuery E.C l.query hd' S r : Res (Settings × Req ρ σ F) Unit).2.2.method ≠ none := by
          intro r2 hm
          have a := applyContentType_method E.C hd' S r2
          generalize applyContentType E.C hd' S r2 = y at a
          obtain ⟨x, S', r3⟩ := y
          simp only at a
          cases x with
          | error e =>
            simp only
            rw [a, hm]
            simp
          | ok u =>
            simp only
            rw [applyQuery_method, a, hm]
            simp
        exact absurd h (key _ rfl)

/-- A header that is refused before anything of it is taken: the request is as it was made, but for the stream, which
stands behind the first empty line (or at its end), and the flag. -/
theorem refused_state (L : Lawful ρ) (E : Env ρ σ F) (hE : E.C = pyCodecs) {S S1 : Settings} (hU : Usable S)
    (hS : 1 ≤ S.maxHeaderSize) {p : ρ} (hI : L.Inv p) {r0 r1 : Req ρ σ F} (h0 : Req.new E.C S p = .ok r0) {x : Except Exc Unit}
    (h : parseRequestHeader E S r0 = (x, S1, r1)) (hm : r1.method = none) :
    S1 = S ∧ Blank r1 ∧ r1.bodyParsed = false ∧ r1.body_ = none ∧ r1.files_ = none ∧ SK L 2 r1.stream ∧
      ((∃ head, FirstEnd (L.content p) head (L.sc r1.stream)) ∨
        ((¬ ∃ head body, FirstEnd (L.content p) head body) ∧ L.sc r1.stream = [])) ∧ ∃ e, x = .error e := by
  unfold Req.new Req.reInit at h0
  rw [hE, queryDict_usable hU] at h0
  simp only [Except.ok.injEq] at h0
  subst h0
  have hsc : L.sc (LazyStream.mk' p) = L.content p := by simp [Lawful.sc, LazyStream.mk']
  rcases parseRequestHeader_spec (L := L) (k := 0) (by omega) E S hS
      ({ stream := LazyStream.mk' p
         post := some (.query ⟨[], true⟩)
         files := some []
         get := some ⟨[], true⟩
         info := some {}
         contentType := some none } : Req ρ σ F) rfl (SK.fresh L p hI) with
    ⟨i, s', a1, a2, a3, a4⟩ | ⟨a1, s', a2, a3, a4⟩
  · rw [h] at a2
    obtain ⟨e, he⟩ := applyHeader_untaken (by rw [← a2]; exact hm)
    rw [he] at a2
    simp only [Prod.mk.injEq] at a2
    obtain ⟨rfl, rfl, rfl⟩ := a2
    refine ⟨rfl, ⟨⟨rfl, rfl, rfl, rfl, rfl, rfl, rfl, rfl, rfl, ⟨_, rfl⟩, rfl⟩, rfl, by simp, by simp⟩, rfl, rfl, rfl, a3,
      .inl ⟨(L.content p).take i, ?_⟩, _, rfl⟩
    rw [hsc] at a1 a4
    exact firstEnd_iff.2 ⟨i, a1, rfl, by simpa using a4⟩
  · rw [h] at a2
    simp only [Prod.mk.injEq] at a2
    obtain ⟨rfl, rfl, rfl⟩ := a2
    refine ⟨rfl, ⟨⟨rfl, rfl, rfl, rfl, rfl, rfl, rfl, rfl, rfl, ⟨_, rfl⟩, rfl⟩, rfl, by simp, by simp⟩, rfl, rfl, rfl,
      a3.mono (by omega), .inr ⟨?_, a4⟩, _, rfl⟩
    rintro ⟨hd, bd, hf⟩
    obtain ⟨i, hi, _⟩ := firstEnd_iff.1 hf
    rw [hsc] at a1
    rw [a1] at hi
    cases hi

theorem readBody_shape (S : Settings) (r : Req ρ σ F) :
    ∃ s b, (readBody S r).2 = { r with stream := s, body_ := b } := by
  unfold readBody
  rcases r.stream.read (some 65536) with ⟨o, s⟩
  cases o with
  | error e => exact ⟨s, r.body_, rfl⟩
  | ok c =>
    simp only
    rcases bodyLoop S.dataMaxMemory (s.size + 2) [] c c.length s with ⟨o, s⟩
    cases o with
    | error e => exact ⟨s, r.body_, rfl⟩
    | ok b => exact ⟨s, some (.b b), rfl⟩

theorem bodyCore_shape (S : Settings) (r : Req ρ σ F) :
    ∃ s b, (bodyCore S r).2 = { r with stream := s, body_ := b } := by
  unfold bodyCore
  split
  · exact ⟨r.stream, r.body_, rfl⟩
  · split
    · exact ⟨r.stream, r.body_, rfl⟩
    · cases hb : r.body_ with
      | none => exact readBody_shape S r
      | some b => exact ⟨r.stream, some b, by simp only [← hb]⟩

theorem Blank.bodyCore {r : Req ρ σ F} (h : Blank r) (S : Settings) : Blank (bodyCore S r).2 := by
  obtain ⟨s, b, e⟩ := bodyCore_shape S r
  rw [e]
  exact ⟨⟨h.method, h.scheme, h.host, h.port, h.path, h.proto, h.contentType, h.info, h.get, h.post, h.files⟩,
    h.headerParsed, h.post_, h.files_⟩

theorem Blank.results {r : Req ρ σ F} (h : Blank r) : Blank { r with post_ := some (.query ⟨[], false⟩), files_ := some [] } :=
  ⟨⟨h.method, h.scheme, h.host, h.port, h.path, h.proto, h.contentType, h.info, h.get, h.post, h.files⟩, h.headerParsed,
    by simp, by simp⟩

theorem Blank.stream {r : Req ρ σ F} (h : Blank r) (s : LazyStream ρ) : Blank { r with stream := s } :=
  ⟨⟨h.method, h.scheme, h.host, h.port, h.path, h.proto, h.contentType, h.info, h.get, h.post, h.files⟩, h.headerParsed,
    h.post_, h.files_⟩

theorem Blank.handlers {r : Req ρ σ F} (h : Blank r) (H : Option (HandlerOps ρ σ F)) : Blank { r with handlers := H } :=
  ⟨⟨h.method, h.scheme, h.host, h.port, h.path, h.proto, h.contentType, h.info, h.get, h.post, h.files⟩, h.headerParsed,
    h.post_, h.files_⟩

/-- The content type `None` never makes a form. -/
theorem parseByType_none {E : Env ρ σ F} (hE : E.C = pyCodecs) {S : Settings} (hU : Usable S) (H : HandlerOps ρ σ F)
    {r : Req ρ σ F} (hc : r.contentType = some none) (w : σ) :
    parseByType E S H r w = (.ok (), { r with post_ := some (.query ⟨[], false⟩), files_ := some [] }, w) := by
  unfold parseByType
  rw [hc, hE, queryDict_usable hU]
  simp

theorem finishBody_blank {C : Codecs} {S : Settings} {r : Req ρ σ F} (h : Blank r) (hp : r.post_ ≠ none) (hf : r.files_ ≠ none) :
    Blank (finishBody C S r).2 := by
  unfold finishBody
  obtain ⟨s, b, e⟩ := bodyCore_shape S r
  have hb := h.bodyCore S
  generalize Verif.bodyCore S r = y at e hb
  obtain ⟨x, r'⟩ := y
  simp only at e hb
  cases x with
  | error e => exact hb
  | ok t =>
    simp only
    cases decodeBody C S t with
    | error e => exact hb
    | ok u =>
      obtain ⟨d, hd⟩ := Option.ne_none_iff_exists'.1 hp
      obtain ⟨f, hf⟩ := Option.ne_none_iff_exists'.1 hf
      have e1 : r'.post_ = some (.query ⟨[], false⟩) := by
        rw [e]
        show r.post_ = _
        rw [hd, h.post_ d hd]
      have e2 : r'.files_ = some [] := by
        rw [e]
        show r.files_ = _
        rw [hf, h.files_ f hf]
      exact ⟨⟨hb.method, hb.scheme, hb.host, hb.port, hb.path, hb.proto, hb.contentType, hb.info, hb.get, ⟨false, e1⟩, e2⟩,
        hb.headerParsed, hb.post_, hb.files_⟩

theorem parseRequestBody_blank {E : Env ρ σ F} (hE : E.C = pyCodecs) {S : Settings} (hU : Usable S) {r : Req ρ σ F}
    (h : Blank r) (w : σ) : Blank (parseRequestBody E S r w).2.1 := by
  unfold parseRequestBody
  split
  · exact h
  · rcases E.load w with ⟨e | H, w1⟩
    · exact h
    simp only
    have h1 := h.handlers (some H)
    rw [if_neg (by rw [h.headerParsed]; simp)]
    generalize ({ r with handlers := some H } : Req ρ σ F) = r at h1
    unfold parseBodyStream
    rcases r.stream.read (some 1) with ⟨e | d, s⟩
    · exact h1.stream s
    simp only
    split
    · rw [hE, queryDict_usable hU]
      exact (h1.stream s).results
    · rcases s.unget d with ⟨e | u, s⟩
      · exact h1.stream s
      simp only
      have h2 := h1.stream s
      rw [parseByType_none hE hU H h2.contentType]
      simp only
      exact finishBody_blank h2.results (by simp) (by simp)

theorem run_blank {E : Env ρ σ F} (hE : E.C = pyCodecs) {S : Settings} (hU : Usable S) (ops : List ReqOp) :
    ∀ {r : Req ρ σ F} (w : σ), Blank r → Blank (run E ops (S, r, w)).2.1 ∧ (run E ops (S, r, w)).1 = S := by
  induction ops with
  | nil => intro r w h; exact ⟨h, rfl⟩
  | cons op ops ih =>
    intro r w h
    cases op with
    | body =>
      have e : body E S r = ((bodyCore S r).1, S, (bodyCore S r).2) := by
        unfold body
        rw [if_pos (.inl h.headerParsed)]
      simp only [run, e]
      exact ih w (h.bodyCore S)
    | parseHeader =>
      have e : parseRequestHeader E S r = (.ok (), S, r) := by
        unfold parseRequestHeader
        rw [if_pos h.headerParsed]
      simp only [run, e]
      exact ih w h
    | parseBody =>
      simp only [run]
      exact ih _ (parseRequestBody_blank hE hU h w)
    | read n =>
      simp only [run]
      exact ih w (h.stream _)

/-- **C147, what is true**: after a header was refused before anything of it was taken, the request never shows anything of
what was sent, whatever calls follow (`parse_request_header`, `parse_request_body`, `body`, `read`, in whatever order and
number): no method, host, path or headers, and nothing in `GET`, `POST` and `FILES`; and the settings stay as they are.
What is missing: the later calls do not raise (`C147_refuted`). -/
theorem C147_partial (L : Lawful ρ) (E : Env ρ σ F) (hE : E.C = pyCodecs) {S S1 : Settings} (hU : Usable S)
    (hS : 1 ≤ S.maxHeaderSize) {p : ρ} (hI : L.Inv p) {r0 r1 : Req ρ σ F} (h0 : Req.new E.C S p = .ok r0) {e : Exc}
    (h : parseRequestHeader E S r0 = (.error e, S1, r1)) (hm : r1.method = none) (ops : List ReqOp) (w : σ) :
    ShowsNothing (run E ops (S1, r1, w)).2.1 ∧ (run E ops (S1, r1, w)).1 = S := by
  obtain ⟨rfl, hb, _⟩ := refused_state L E hE hU hS hI h0 h hm
  obtain ⟨a, b⟩ := run_blank hE hU ops w hb
  exact ⟨a.toShowsNothing, b⟩

/-- **C147 is false of the code, for every header that is refused before anything of it is taken**: calling `parse()` again
reports success, when nothing follows the first empty line (or there is none), and also when the text that follows is allowed
and can be decoded.  In the second case the request even counts as parsed, with the text as its body, whatever content type
was sent with it. -/
theorem C147_refuted (L : Lawful ρ) (E : Env ρ σ F) (hE : E.C = pyCodecs) {S S1 : Settings} (hU : Usable S)
    (hS : 1 ≤ S.maxHeaderSize) {p : ρ} (hI : L.Inv p) {r0 r1 : Req ρ σ F} (h0 : Req.new E.C S p = .ok r0) {e : Exc}
    (h : parseRequestHeader E S r0 = (.error e, S1, r1)) (hm : r1.method = none) {H : HandlerOps ρ σ F} {w w2 : σ}
    (hl : E.load w = (.ok H, w2)) :
    parseRequest E S r0 w = (.error e, S1, r1, w) ∧
    ((∀ head body, FirstEnd (L.content p) head body → body = []) →
      ∃ r2, parseRequest E S1 r1 w = (.ok (), S, r2, w2) ∧ ShowsNothing r2 ∧ r2.bodyParsed = false) ∧
    (∀ head body u, FirstEnd (L.content p) head body → body ≠ [] → Allowed S.dataMaxMemory body.length →
      pyCodecs.decode S.defaultCharset body = .ok u →
      ∃ r2, parseRequest E S1 r1 w = (.ok (), S, r2, w2) ∧ ShowsNothing r2 ∧ r2.bodyParsed = true ∧
        r2.body_ = some (.u u)) := by
  obtain ⟨rfl, hb, b1, b2, b3, b4, b5, _⟩ := refused_state L E hE hU hS hI h0 h hm
  have hr : parseRequest E S1 r1 w = ((parseRequestBody E S1 r1 w).1, S1, (parseRequestBody E S1 r1 w).2) := by
    unfold parseRequest parseRequestHeader
    rw [if_pos hb.headerParsed]
  have hbl := parseRequestBody_blank hE hU hb w
  have hpb : parseRequestBody E S1 r1 w = parseBodyStream E S1 H { r1 with handlers := some H } w2 := by
    unfold parseRequestBody
    rw [if_neg (by rw [b1]; simp), hl]
    simp only
    rw [if_neg (by rw [hb.headerParsed]; simp)]
  obtain ⟨s1, c1, c2, c3, _⟩ := b4.read (by omega) 1
  have c1' : r1.stream.read (some 1) = (.ok ((L.sc r1.stream).take 1), s1) := c1
  refine ⟨by unfold parseRequest; rw [h], fun hn => ?_, fun head body u hf hne ha hd => ?_⟩
  · have hz : L.sc r1.stream = [] := by
      rcases b5 with ⟨hd, hf⟩ | ⟨_, hz⟩
      · exact hn _ _ hf
      · exact hz
    rw [hr]
    rw [hpb] at hbl ⊢
    unfold parseBodyStream at hbl ⊢
    simp only [c1', hz, List.take_nil, if_true, hE, queryDict_usable hU] at hbl ⊢
    exact ⟨_, rfl, hbl.toShowsNothing, b1⟩
  · have hz : L.sc r1.stream = body := by
      rcases b5 with ⟨hd', hf'⟩ | ⟨hn, _⟩
      · obtain ⟨i, i1, i2, i3⟩ := firstEnd_iff.1 hf
        obtain ⟨j, j1, j2, j3⟩ := firstEnd_iff.1 hf'
        rw [i1] at j1
        cases j1
        rw [j3, i3]
      · exact absurd ⟨_, _, hf⟩ hn
    obtain ⟨s2, d1, d2, d3⟩ := c2.unget (by omega) ((L.sc r1.stream).take 1)
    rw [c3, List.take_append_drop, hz] at d3
    rw [hr]
    rw [hpb] at hbl ⊢
    unfold parseBodyStream at hbl ⊢
    have ht : ¬ (L.sc r1.stream).take 1 = [] := by
      rw [hz]
      intro h
      rcases List.take_eq_nil_iff.1 h with h | h
      · cases h
      · exact hne h
    simp only [c1', d1] at hbl ⊢
    rw [if_neg ht] at hbl ⊢
    rw [parseByType_none hE hU H (by exact hb.contentType)] at hbl ⊢
    simp only at hbl ⊢
    generalize hq : ({ r1 with
      handlers := some H
      stream := s2
      post_ := some (.query ⟨[], false⟩)
      files_ := some [] } : Req ρ σ F) = q at hbl ⊢
    obtain ⟨s3, e1, _, e3⟩ := readBody_spec (L := L) (k := 4) (by omega) S1 q (by rw [← hq]; exact d2)
    have hq' : L.sc q.stream = body := by rw [← hq]; exact d3
    have hw : withinLimit S1.dataMaxMemory (L.sc q.stream).length = true := by
      obtain ⟨l, l1, l2⟩ := ha
      rw [hq', l1]
      simpa [withinLimit] using l2
    rcases e3 with ⟨_, _, e3⟩ | ⟨e3, _⟩
    · have := (finishBody_fresh (C := E.C) (S := S1) (r := q) (by rw [← hq]; exact b1) (by rw [← hq]; exact b2) e3).1 u
        (by rw [hE, hq']; exact hd)
      rw [this] at hbl ⊢
      exact ⟨_, rfl, hbl.toShowsNothing, rfl, rfl⟩
    · rw [hw] at e3
      cases e3

/-- The request line and the first header are read before the header line that is refused. -/
example : FirstEnd b!"POST http://h/ HTTP/1.1\r\nContent-Type: text/plain\r\nno colon\r\n\r\nlet me in"
      b!"POST http://h/ HTTP/1.1\r\nContent-Type: text/plain\r\nno colon" b!"let me in" ∧
    (let E : Env Source Unit Unit := { bareEnv with C := pyCodecs }
     let r0 : Req Source Unit Unit :=
       freshReq ⟨[b!"POST http://h/ HTTP/1.1\r\nContent-Type: te", b!"xt/plain\r\nno colon\r\n\r\nlet me in"]⟩
     (match parseRequest E {} r0 () with
      | (.error .invalidHttpRequest, S1, r1, _) =>
        decide (r1.method = none) &&
          (match parseRequest E S1 r1 () with
            | (.ok (), _, r2, _) => r2.bodyParsed && decide (r2.body_ = some (.u (Py.toU b!"let me in")))
            | _ => false)
      | _ => false) = true) :=
  ⟨firstEnd_iff.2 ⟨59, by decide +kernel, by decide +kernel, by decide +kernel⟩, by decide +kernel⟩

/-! ### A header that is refused when most of it has been taken -/

/-- More than the limit allows: refused. -/
theorem queryDict_many {C : Codecs} {S : Settings} (hC : AsciiCodec C S.defaultCharset) {q : Bytes} (ha : ∀ c ∈ q, c < 128)
    {n : Nat} (hn : 1 ≤ n) (hl : S.maxFields = some (n : Int)) (hq : n < numPieces (Py.toU q)) (mt : Bool) :
    queryDict C S (some (.b q)) mt = .error .tooManyFieldsSent := by
  unfold queryDict queryText
  simp only [hC.decode q ha, hl]
  rw [(C51_limit C (Py.toU q) true S.defaultCharset n hn).1 hq]

/-- An urlencoded form is parsed although the header is not complete. -/
theorem form_parsed {L : Lawful ρ} {E : Env ρ σ F} {S : Settings} {r : Req ρ σ F} {body : Bytes} {form : List (UStr × UStr)}
    (hh : r.headerParsed = true) (h7 : r.bodyParsed = false) (h8 : r.body_ = none)
    (ht : r.contentType = some (some b!"application/x-www-form-urlencoded")) (h4 : SK L 2 r.stream)
    (h5 : L.sc r.stream = body) (hb : body ≠ []) (hc : AsciiCodec E.C S.defaultCharset)
    (hf : Written E.C S.defaultCharset form body) (hm : Allowed S.dataMaxMemory body.length)
    (hn : Admits S.maxFields (numPieces (Py.toU body))) {w w1 : σ} {H : HandlerOps ρ σ F} (hl : E.load w = (.ok H, w1)) :
    ∃ s, parseRequest E S r w = (.ok (), S, { r with
      handlers := some H, stream := s, post_ := some (.query ⟨form, false⟩), files_ := some []
      post := some (.query ⟨form, false⟩), files := some [], body_ := some (.u (Py.toU body)), bodyParsed := true }, w1) := by
  have h2 : parseRequestHeader E S r = (.ok (), S, r) := by
    unfold parseRequestHeader
    rw [if_pos hh]
  obtain ⟨s, a1, a2, a3⟩ := parseBodyStream_full (E := E) (S := S) (w := w1) (H := H)
    (r := { r with handlers := some H }) (k := 2) (by omega) h4 (by rw [h5]; exact hb)
  have a2 : L.sc s = body := a2.trans h5
  have hw : withinLimit S.dataMaxMemory (L.sc s).length = true := by
    rw [a2]; exact (withinLimit_iff _ _).2 hm
  obtain ⟨s2, _, _, hr⟩ := readBody_spec (k := 4) (by omega) S { r with handlers := some H, stream := s } a1
  rcases hr with ⟨_, _, hr⟩ | ⟨hr, _⟩
  case inr => rw [hw] at hr; cases hr
  have hq := queryDict_written hc hf hn false
  refine ⟨s2, ?_⟩
  have hby : parseByType E S H { r with handlers := some H, stream := s } w1 = (.ok (), { r with
      handlers := some H, stream := s2, body_ := some (.b body), post_ := some (.query ⟨form, false⟩)
      files_ := some [] }, w1) := by
    unfold parseByType
    simp only [ht, Option.some.injEq]
    rw [if_neg (by decide), if_pos trivial, ← ht, bodyCore_fresh (r := { r with handlers := some H, stream := s }) h7 h8,
      hr, a2]
    simp only [hq]
  rw [parseRequest_body h2 hh h7 hl, a3, hby]
  simp only
  unfold finishBody
  rw [bodyCore_held (v := .b body) (by exact h7) (by exact rfl)]
  simp only [decodeBody, hc.decode _ hf.ascii]

/-- **C147 is false of the code also for a well-formed header whose query string has too many parameters**: `parse()` refuses
the request (`TooManyFieldsSent`), and when it is called again it reports success.  An urlencoded form is then in `POST` as
it was sent, and the request has its method and path; the content type decided.  Only a multipart form is refused again, with
an `AttributeError`, since the headers have not been stored. -/
theorem C147_query_refuted (L : Lawful ρ) (E : Env ρ σ F) (S : Settings) (hS : 1 ≤ S.maxHeaderSize) (p : ρ) (hI : L.Inv p)
    (m : Message) (hm : m.Ok) (hc : L.content p = m.text) (host d port dom : Bytes) (hh : m.HostText host)
    (hf : HostForm (Py.lower host) d port) (hdom : DotRemoved d dom) {t : Bytes} (ps : List (Bytes × Bytes))
    (hct : m.Content (some t) ps) (hC0 : AsciiCodec E.C S.defaultCharset)
    (hC : AsciiCodec E.C (charsetAfter S ps).defaultCharset)
    {n : Nat} (hn : 1 ≤ n) (hl : S.maxFields = some (n : Int)) (hq : n < numPieces (Py.toU m.query)) (hb : m.body ≠ [])
    {w w1 : σ} {H : HandlerOps ρ σ F} (hld : E.load w = (.ok H, w1)) :
    ∃ r0 r1 : Req ρ σ F, Req.new E.C S p = .ok r0 ∧
      parseRequest E S r0 w = (.error .tooManyFieldsSent, charsetAfter S ps, r1, w) ∧
      (∀ form, Py.lower t = b!"application/x-www-form-urlencoded" →
        Written E.C (charsetAfter S ps).defaultCharset form m.body → Allowed S.dataMaxMemory m.body.length →
        numPieces (Py.toU m.body) ≤ n →
        ∃ r2, parseRequest E (charsetAfter S ps) r1 w = (.ok (), charsetAfter S ps, r2, w1) ∧ r2.bodyParsed = true ∧
          r2.post = some (.query ⟨form, false⟩) ∧ r2.method = some m.method ∧ r2.path = some m.path) ∧
      (Py.lower t = b!"multipart/form-data" →
        (parseRequest E (charsetAfter S ps) r1 w).1 = .error .attributeError) := by
  have hnew : Req.new (σ := σ) (F := F) E.C S p = .ok (freshReq p) := by
    unfold Req.new Req.reInit
    simp only [queryDict_none hC0 (fun l h => by rw [hl] at h; cases h; exact .inr (by omega)) true]
    rfl
  obtain ⟨s', hd', g, po, b, f1, a3, a4, f2, e2⟩ := head_applied L E S hS (freshReq p) rfl p rfl hI m hm hc host d port dom hh hf
    hdom (some t) ps hct
  have hqne : m.reqLine.query ≠ [] := by
    show m.query ≠ []
    intro h
    rw [h] at hq
    have : numPieces (Py.toU []) = 1 := by decide
    omega
  have hS' := charsetAfter_fields S ps
  have hmany : queryDict E.C (charsetAfter S ps) (some (.b m.reqLine.query)) false = .error .tooManyFieldsSent :=
    queryDict_many hC (fun c h => UInt8.lt_of_le_of_lt (hm.query c h).1.2 (by decide : (126 : UInt8) < 128)) hn (by rw [hS'.1]; exact hl) hq false
  obtain ⟨r1, g1, g2, g3, g4, g5, g6, g7, g8, g9, g10⟩ : ∃ r1 : Req ρ σ F,
      parseRequestHeader E S (freshReq p) = (.error .tooManyFieldsSent, charsetAfter S ps, r1) ∧ r1.headerParsed = true ∧
      r1.bodyParsed = false ∧ r1.body_ = none ∧ r1.contentType = some (some (Py.lower t)) ∧ SK L 2 r1.stream ∧
      L.sc r1.stream = m.body ∧ r1.method = some m.method ∧ r1.path = some m.path ∧
      r1.info = some { query := some m.query } := by
    rw [f1]
    unfold applyQuery
    simp only [freshReq, if_pos hqne, hmany]
    exact ⟨_, rfl, rfl, rfl, f2.1 rfl, rfl, a3, a4, rfl, rfl, rfl⟩
  refine ⟨freshReq p, r1, hnew, by unfold parseRequest; rw [g1], fun form ht hw ha hk => ?_, fun ht => ?_⟩
  · obtain ⟨s, e⟩ := form_parsed (E := E) (S := charsetAfter S ps) g2 g3 g4 (by rw [g5, ht]) g6 g7 hb hC hw
      (by rw [hS'.2.1]; exact ha) (fun l h => by rw [hS'.1, hl] at h; cases h; exact .inr (by omega)) hld
    exact ⟨_, e, rfl, rfl, g8, g9⟩
  · have h2 : parseRequestHeader E (charsetAfter S ps) r1 = (.ok (), charsetAfter S ps, r1) := by
      unfold parseRequestHeader
      rw [if_pos g2]
    obtain ⟨s, b1, b2, b3⟩ := parseBodyStream_full (E := E) (S := charsetAfter S ps) (w := w1) (H := H)
      (r := { r1 with handlers := some H }) (k := 2) (by omega) g6 (by rw [g7]; exact hb)
    rw [parseRequest_body h2 g2 g3 hld, b3]
    unfold parseByType
    simp only [g5, ht, if_true]
    unfold parseFileUpload
    simp only [g10]
    rfl

/-- The sample request of `Verif.Props.Message` (two query parameters, a form with one field), with at most one field. -/
example (cs : List Bytes) (h : cs.flatten = sampleMessage.text) (E : Env Source σ F) (hE : E.C = pyCodecs)
    {w w1 : σ} {H : HandlerOps Source σ F} (hl : E.load w = (.ok H, w1)) :
    ∃ r0 r1 r2 : Req Source σ F, Req.new E.C { maxFields := some 1 } ⟨cs⟩ = .ok r0 ∧ ∃ S1,
      parseRequest E { maxFields := some 1 } r0 w = (.error .tooManyFieldsSent, S1, r1, w) ∧
      parseRequest E S1 r1 w = (.ok (), S1, r2, w1) ∧
      r2.post = some (.query ⟨[(Py.toU b!"k", Py.toU b!"v w")], false⟩) := by
  have ha := sampleMessage_arrives cs h
  obtain ⟨t, d, g1, g2, g3⟩ := ha.host
  have hcs : (charsetAfter { maxFields := some 1 } [(b!"Charset", b!"utf-8")]).defaultCharset = b!"utf-8" := by decide +kernel
  obtain ⟨r0, r1, a1, a2, a3, _⟩ := C147_query_refuted Source.lawful E { maxFields := some 1 } ha.size ⟨cs⟩ ha.inv sampleMessage
    ha.ok ha.text t d _ _ g1 g2 g3 _ ha.content (by rw [hE]; exact ha.codec0) (by rw [hE]; exact ha.codec) (n := 1)
    (Nat.le_refl 1) rfl (by decide +kernel) (by decide +kernel) hl
  obtain ⟨r2, b1, _, b3, _⟩ := a3 _ (by decide +kernel) (by rw [hE, hcs]; exact sampleMessage_body)
    ⟨_, rfl, by decide +kernel⟩ (by decide +kernel)
  exact ⟨r0, r1, r2, a1, _, a2, b1, b3⟩

/-- **C135**, the exception: a request whose change of stream failed when its header had been parsed and its body had not
raises `AttributeError` for every new stream that is not empty. -/
theorem C135_attribute (L : Lawful ρ) (E : Env ρ σ F) (C : Codecs) (S0 S : Settings) (p : ρ) (hI : L.Inv p)
    (hne : L.content p ≠ []) (r0 r : Req ρ σ F) (e : Exc) (hf : Req.setStream C S0 p r0 = (.error e, r))
    (hh : r0.headerParsed = true) (hb : r0.bodyParsed = false) {w w1 : σ} {H : HandlerOps ρ σ F}
    (hl : E.load w = (.ok H, w1)) : (parseRequest E S r w).1 = .error .attributeError := by
  obtain ⟨a1, a2, a3, a4⟩ : r.stream = LazyStream.mk' p ∧ r.headerParsed = r0.headerParsed ∧
      r.bodyParsed = r0.bodyParsed ∧ r.contentType = none := by
    unfold Req.setStream Req.reInit at hf
    cases hq : queryDict C S0 none true with
    | error e' =>
      rw [hq] at hf
      simp only [Prod.mk.injEq] at hf
      rw [← hf.2]
      exact ⟨rfl, rfl, rfl, rfl⟩
    | ok q =>
      rw [hq] at hf
      simp at hf
  have g2 : r.headerParsed = true := a2.trans hh
  have g3 : r.bodyParsed = false := a3.trans hb
  have h2 : parseRequestHeader E S r = (.ok (), S, r) := by
    unfold parseRequestHeader
    rw [if_pos g2]
  have hsc : L.sc (LazyStream.mk' p) = L.content p := by simp [Lawful.sc, LazyStream.mk']
  obtain ⟨s, b1, b2, b3⟩ := parseBodyStream_full (L := L) (E := E) (S := S) (w := w1) (H := H)
    (r := { r with handlers := some H }) (k := 2) (by omega)
    (by show SK L 2 r.stream; rw [a1]; exact (SK.fresh L p hI).mono (by omega))
    (by show L.sc r.stream ≠ []; rw [a1, hsc]; exact hne)
  rw [parseRequest_body h2 g2 g3 hl, b3]
  unfold parseByType
  simp only [a4]

/-- A request with a parsed header, given a new stream while the settings name the charset `klingon`. -/
example : (let r0 : Req Source Unit Unit := { freshReq ⟨[]⟩ with headerParsed := true }
    match Req.setStream pyCodecs { defaultCharset := b!"klingon" } ⟨[b!"a"]⟩ r0 with
    | (.error .lookupError, r) =>
      (match parseRequest { bareEnv with C := pyCodecs } {} r () with
        | (.error .attributeError, _) => true
        | _ => false)
    | _ => false) = true := by decide +kernel

end Verif
