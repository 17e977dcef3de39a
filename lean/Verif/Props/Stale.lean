import Verif.Props.Unknown
/-!
# Parsing after a stream could not be assigned (C135)
-/

namespace Verif
open Spec

section
variable {ρ σ F : Type} [Producer ρ]

/-- Without `META` no header is accepted. -/
theorem parseRequestHeader_noInfo (E : Env ρ σ F) (S : Settings) (r : Req ρ σ F) (hr : r.headerParsed = false)
    (hi : r.info = none) (hg : r.get = none) :
    ∃ e S' r', parseRequestHeader E S r = (.error e, S', r') ∧ r'.info = none ∧ r'.get = none ∧
      r'.post = r.post ∧ r'.files = r.files := by
  unfold parseRequestHeader
  rw [if_neg (by rw [hr]; decide)]
  generalize headerLoop S.maxHeaderSize (r.stream.size + 2) [] false r.stream = x
  obtain ⟨x | ⟨header, rest⟩, s, b⟩ := x
  · exact ⟨_, _, _, rfl, hi, hg, rfl, rfl⟩
  simp only
  generalize s.unget rest = y
  obtain ⟨y | y, s'⟩ := y
  · exact ⟨_, _, _, rfl, hi, hg, rfl, rfl⟩
  simp only
  unfold applyHeader
  cases parseRequestHeaders (header ++ b!"\r\n") with
  | error e => exact ⟨_, _, _, rfl, hi, hg, rfl, rfl⟩
  | ok lh =>
    obtain ⟨line, h⟩ := lh
    simp only
    cases parseRequestLine E.up line with
    | error e => exact ⟨_, _, _, rfl, hi, hg, rfl, rfl⟩
    | ok l =>
      simp only
      cases hostText l h with
      | error e => exact ⟨_, _, _, rfl, hi, hg, rfl, rfl⟩
      | ok hh =>
        obtain ⟨host, h'⟩ := hh
        simp only
        have key : ∀ q : Req ρ σ F, q.info = none → q.get = none → ∃ x S' q', applyContentType E.C h' S q = (x, S', q') ∧
            q'.info = none ∧ q'.get = none ∧ q'.post = q.post ∧ q'.files = q.files := by
          intro q h1 h2
          unfold applyContentType
          cases h'.get? b!"Content-Type" with
          | none => exact ⟨_, _, _, rfl, h1, h2, rfl, rfl⟩
          | some vs =>
            simp only
            cases parseHeader E.C (vs.getLast?.getD []) with
            | error e => exact ⟨_, _, _, rfl, h1, h2, rfl, rfl⟩
            | ok cp =>
              obtain ⟨ct, params⟩ := cp
              simp only
              cases params.get? b!"charset" with
              | none => exact ⟨_, _, _, rfl, h1, h2, rfl, rfl⟩
              | some v => exact ⟨_, _, _, rfl, h1, rfl, rfl, rfl⟩
        obtain ⟨x, S', q', e, h1, h2, h3, h4⟩ := key { r with
          stream := s', headerParsed := true
          scheme := some (if l.scheme ≠ [] then Py.lower l.scheme else b!"UNKNOWN")
          host := some (splitDomainPort host).1, port := some (portOf l.scheme (splitDomainPort host).2)
          method := some l.method, path := some l.path, proto := some l.proto } hi hg
        rw [e]
        cases x with
        | error e => exact ⟨_, _, _, rfl, h1, h2, h3, h4⟩
        | ok u =>
          simp only
          unfold applyQuery
          rw [h1]
          exact ⟨_, _, _, rfl, h1, h2, h3, h4⟩

/-- **C135**: what `parse()` does to a request whose change of stream failed, with any settings and any upload
handlers.  Whatever it says, there is no header data: `GET` and `META` stay missing, and `POST` and `FILES` are those of the
request before.  Three cases, by what had been parsed *before* the assignment:

* no header: `parse()` raises, whatever the stream gives;
* header and body: `parse()` reports success without having read anything;
* header only: `parse()` reports success only if the new stream is empty.

What is missing to C135: the second case, and an empty stream in the third. -/
theorem C135_partial (L : Lawful ρ) (E : Env ρ σ F) (C : Codecs) (S0 S : Settings) (p : ρ) (hI : L.Inv p)
    (r0 r : Req ρ σ F) (e : Exc) (hf : Req.setStream C S0 p r0 = (.error e, r)) (w : σ) :
    ∃ x S' r' w', parseRequest E S r w = (x, S', r', w') ∧ r'.info = none ∧ r'.get = none ∧ r'.post = r0.post ∧
      r'.files = r0.files ∧
      (r0.headerParsed = false → ∃ e', x = .error e') ∧
      (r0.headerParsed = true → r0.bodyParsed = true → x = .ok () ∧ S' = S ∧ r' = r ∧ w' = w) ∧
      (r0.headerParsed = true → r0.bodyParsed = false → x = .ok () → L.content p = []) := by
  obtain ⟨a1, a2, a3, a4, a5, a6, a7, a8⟩ : r.stream = LazyStream.mk' p ∧ r.info = none ∧ r.get = none ∧ r.post = r0.post ∧
      r.files = r0.files ∧ r.headerParsed = r0.headerParsed ∧ r.bodyParsed = r0.bodyParsed ∧ r.contentType = none := by
    unfold Req.setStream Req.reInit at hf
    cases hq : queryDict C S0 none true with
    | error e' =>
      rw [hq] at hf
      simp only [Prod.mk.injEq] at hf
      rw [← hf.2]
      exact ⟨rfl, rfl, rfl, rfl, rfl, rfl, rfl, rfl⟩
    | ok q =>
      rw [hq] at hf
      simp at hf
  rw [← a4, ← a5, ← a6, ← a7]
  unfold parseRequest
  cases hh : r.headerParsed with
  | false =>
    obtain ⟨e', S', r', h0, h1, h2, h3, h4⟩ := parseRequestHeader_noInfo E S r hh a2 a3
    rw [h0]
    exact ⟨_, _, _, _, rfl, h1, h2, h3, h4, fun _ => ⟨_, rfl⟩, by simp, by simp⟩
  | true =>
    have h0 : parseRequestHeader E S r = (.ok (), S, r) := by
      unfold parseRequestHeader
      rw [if_pos hh]
    rw [h0]
    simp only
    unfold parseRequestBody
    cases hb : r.bodyParsed with
    | true => exact ⟨_, _, _, _, rfl, a2, a3, rfl, rfl, by simp, fun _ _ => ⟨rfl, rfl, rfl, rfl⟩, by simp⟩
    | false =>
      simp only [Bool.false_eq_true, if_false]
      generalize E.load w = y
      obtain ⟨y | H, w2⟩ := y
      · exact ⟨_, _, _, _, rfl, a2, a3, rfl, rfl, by simp, by simp, by simp⟩
      simp only [hh, Bool.true_eq_false, if_false]
      obtain ⟨s', b1, b2, b3, b4⟩ := (SK.fresh L p hI).read (k := 0) (by omega) 1
      have b1' : (LazyStream.mk' p).read (some 1) = (.ok ((L.sc (LazyStream.mk' p)).take 1), s') := b1
      have hsc : L.sc (LazyStream.mk' p) = L.content p := by simp [Lawful.sc, LazyStream.mk']
      unfold parseBodyStream
      simp only [a1, b1']
      by_cases hc : (L.sc (LazyStream.mk' p)).take 1 = []
      · have he : L.content p = [] := by
          rw [hsc] at hc
          cases hl : L.content p with
          | nil => rfl
          | cons c l => rw [hl] at hc; simp at hc
        rw [if_pos hc]
        cases queryDict E.C S none false with
        | error e => exact ⟨_, _, _, _, rfl, a2, a3, rfl, rfl, by simp, by simp, by simp⟩
        | ok q => exact ⟨_, _, _, _, rfl, a2, a3, rfl, rfl, by simp, by simp, fun _ _ _ => he⟩
      · rw [if_neg hc]
        obtain ⟨s2, c1, c2, c3⟩ := b2.unget (by omega) ((L.sc (LazyStream.mk' p)).take 1)
        rw [c1]
        simp only
        unfold parseByType
        simp only [a8]
        exact ⟨_, _, _, _, rfl, a2, a3, rfl, rfl, by simp, by simp, by simp⟩

/-- **C135**: a request whose change of stream failed before any header had been parsed refuses even a
well-formed request, with settings that are in order by then: `AttributeError`, and the method
is there although `META` is not.  A new object would have accepted the header. -/
theorem C135_wellformed {L : Lawful ρ} {E : Env ρ σ F} {S : Settings} {p : ρ} {m : Message} {host port : Bytes}
    {type : Option Bytes} {ps : List (Bytes × Bytes)} {qs : List (UStr × UStr)}
    (ha : Arrives L E.C S p m host port type ps qs) (S0 : Settings) (r0 r : Req ρ σ F) (e : Exc)
    (hf : Req.setStream E.C S0 p r0 = (.error e, r)) (h0 : r0.headerParsed = false) (w : σ) :
    (∃ r2 r3 : Req ρ σ F, Req.new E.C S p = .ok r2 ∧ parseRequestHeader E S r2 = (.ok (), charsetAfter S ps, r3)) ∧
    (parseRequest E S r w).1 = .error .attributeError ∧ (parseRequest E S r w).2.1 = charsetAfter S ps ∧
    (parseRequest E S r w).2.2.1.method = some m.method ∧ (parseRequest E S r w).2.2.1.info = none := by
  refine ⟨?_, ?_⟩
  · obtain ⟨r2, r3, h1, h2, _⟩ := header_new (E := E) ha
    exact ⟨r2, r3, h1, h2⟩
  obtain ⟨a1, a2, a6⟩ : r.stream = LazyStream.mk' p ∧ r.info = none ∧ r.headerParsed = r0.headerParsed := by
    unfold Req.setStream Req.reInit at hf
    cases hq : queryDict E.C S0 none true with
    | error e' =>
      rw [hq] at hf
      simp only [Prod.mk.injEq] at hf
      rw [← hf.2]
      exact ⟨rfl, rfl, rfl⟩
    | ok q =>
      rw [hq] at hf
      simp at hf
  obtain ⟨t, d, hh, hform, hdom⟩ := ha.host
  obtain ⟨s', hd', g, po, b, f1, -⟩ := head_applied L E S ha.size r (a6.trans h0) p a1 ha.inv m ha.ok ha.text t d port host
    hh hform hdom type ps ha.content
  have f2 : ∃ r', parseRequestHeader E S r = (.error .attributeError, charsetAfter S ps, r') ∧
      r'.method = some m.method ∧ r'.info = none := by
    rw [f1]
    unfold applyQuery
    rw [a2]
    exact ⟨_, rfl, rfl, rfl⟩
  obtain ⟨r', f2, f3, f4⟩ := f2
  unfold parseRequest
  rw [f2]
  exact ⟨rfl, rfl, f3, f4⟩

/-- The sample upload of `Verif.Props.Message`, assigned while the settings name the charset `klingon` and parsed when they
are in order again. -/
example (cs : List Bytes) (h : cs.flatten = sampleUpload.text) (E : Env Source σ F) (hE : E.C = pyCodecs) (w : σ) :
    ∃ r, Req.setStream pyCodecs { defaultCharset := b!"klingon" } ⟨cs⟩ (freshReq ⟨[]⟩) = (.error .lookupError, r) ∧
      (parseRequest E {} r w).1 = .error .attributeError := by
  obtain ⟨r', x, e, _, _, _, _, _, _, _, _, _, _, hx, _⟩ := C123_stream { defaultCharset := b!"klingon" } ⟨cs⟩
    (freshReq ⟨[]⟩ : Req Source σ F)
  have he := (hx .lookupError (.inl ⟨by decide +kernel, rfl⟩)).1
  rw [he] at e
  have ha := sampleUpload_arrives cs h
  rw [← hE] at ha
  exact ⟨r', e, (C135_wellformed ha _ _ _ _ (by rw [hE]; exact e) rfl w).2.1⟩

/-- **C135 is false of the code**: a form of an earlier request is still there after `parse()` has reported success for a
stream that could not be assigned.  Any form, any upload handlers. -/
theorem C135_refuted (old : PostDict) (E : Env Source σ F) (w : σ) :
    ∃ r r' w', Req.setStream pyCodecs { defaultCharset := b!"klingon" } ⟨[b!"GET / HTTP/1.1\r\nHost: a.b\r\n\r\n"]⟩
        { freshReq ⟨[]⟩ with headerParsed := true, bodyParsed := true, post := some old } = (.error .lookupError, r) ∧
      parseRequest E {} r w = (.ok (), {}, r', w') ∧ r'.post = some old ∧ r'.info = none := by
  obtain ⟨r, x, e, _, _, _, _, _, _, _, _, _, _, hx, _⟩ := C123_stream { defaultCharset := b!"klingon" }
    ⟨[b!"GET / HTTP/1.1\r\nHost: a.b\r\n\r\n"]⟩
    ({ freshReq ⟨[]⟩ with headerParsed := true, bodyParsed := true, post := some old } : Req Source σ F)
  rw [(hx .lookupError (.inl ⟨by decide +kernel, rfl⟩)).1] at e
  obtain ⟨x, S', r', w', h1, h2, _, h4, _, _, h7, _⟩ := C135_partial Source.lawful E _ _ {} _ trivial _ _ _ e w
  obtain ⟨rfl, rfl, _, _⟩ := h7 rfl rfl
  exact ⟨_, _, _, e, h1, h4, h2⟩

/-- An instance: the form `a=1`. -/
example (E : Env Source σ F) (w : σ) :=
  C135_refuted (.query ⟨[(Py.toU b!"a", Py.toU b!"1")], false⟩) E w

/-- **C135**, for `body_stream`: after an assignment that failed `POST` and `FILES` are gone.  If a body had been parsed
before, `parse_request_body` reports success without reading anything, and they stay away.  If none had been, the new body is
parsed as after an assignment that succeeds: the same outcome and the same use of the upload handlers, and once a body has
been parsed the same `POST`, `FILES` and body text. -/
theorem C135_body_partial (E : Env ρ σ F) (C : Codecs) (S0 S : Settings) (p : ρ) (r0 r : Req ρ σ F) (e : Exc)
    (hf : Req.setBodyStream C S0 p r0 = (.error e, r)) (w : σ) :
    r.post = none ∧ r.files = none ∧
    (r0.bodyParsed = true → parseRequestBody E S r w = (.ok (), r, w)) ∧
    (r0.bodyParsed = false → ∀ S1 r1, Req.setBodyStream C S1 p r0 = (.ok (), r1) →
      (parseRequestBody E S r w).1 = (parseRequestBody E S r1 w).1 ∧
      (parseRequestBody E S r w).2.2 = (parseRequestBody E S r1 w).2.2 ∧
      (parseRequestBody E S r w).2.1.body_ = (parseRequestBody E S r1 w).2.1.body_ ∧
      (parseRequestBody E S r w).2.1.bodyParsed = (parseRequestBody E S r1 w).2.1.bodyParsed ∧
      SameHeader (parseRequestBody E S r w).2.1 (parseRequestBody E S r1 w).2.1 ∧
      ((parseRequestBody E S r1 w).2.1.bodyParsed = true →
        (parseRequestBody E S r w).2.1.post = (parseRequestBody E S r1 w).2.1.post ∧
        (parseRequestBody E S r w).2.1.files = (parseRequestBody E S r1 w).2.1.files) ∧
      ((parseRequestBody E S r1 w).2.1.bodyParsed = false →
        (parseRequestBody E S r w).2.1.post = none ∧ (parseRequestBody E S r w).2.1.files = none)) := by
  have hr : r = { r0 with stream := LazyStream.mk' p, post := none, files := none, body_ := none } := by
    unfold Req.setBodyStream at hf
    cases hq : queryDict C S0 none true with
    | error e' =>
      simp only [hq, Prod.mk.injEq] at hf
      exact hf.2.symm
    | ok q =>
      simp only [hq, Prod.mk.injEq] at hf
      cases hf.1
  refine ⟨by rw [hr], by rw [hr], ?_, ?_⟩
  · intro hb
    unfold parseRequestBody
    rw [if_pos (by rw [hr]; exact hb)]
  · intro hb S1 r1 h1
    unfold Req.setBodyStream at h1
    cases hq : queryDict C S1 none true with
    | error e' =>
      simp only [hq, Prod.mk.injEq] at h1
      cases h1.1
    | ok q =>
      simp only [hq, Prod.mk.injEq, true_and] at h1
      have hp : r1.bodyParsed = false := by rw [← h1]
      have e1 : r = r1.over r := by
        rw [← h1, hr]
        simp only [Req.over, hb]
      obtain ⟨x', f1, f2⟩ := parseRequestBody_over E S r1 r w hp
      rw [e1, f1]
      refine ⟨rfl, rfl, rfl, rfl, ⟨rfl, rfl, rfl, rfl, rfl, rfl, rfl, rfl, rfl, rfl⟩, ?_, ?_⟩
      · intro h
        rcases f2 with ⟨_, g1, g2⟩ | ⟨g, _⟩
        · exact ⟨g1, g2⟩
        · rw [h] at g; cases g
      · intro h
        rcases f2 with ⟨g, _⟩ | ⟨_, g1, g2, _⟩
        · rw [h] at g; cases g
        · exact ⟨g1.trans (by rw [hr]), g2.trans (by rw [hr])⟩

/-- Both cases: a request that has parsed a form, and one that has parsed its header only. -/
example :
    (let r0 := (parseRequest bareEnv {} (reqOf [b!"POST http://h/ HTTP/1.1\r\nContent-Type: application/x-www-form-urlencoded\r\n\r\na=1"]) ()).2.2.1
     let y := Req.setBodyStream pyCodecs { defaultCharset := b!"klingon" } ⟨[b!"b=2"]⟩ r0
     r0.bodyParsed = true ∧ y.1.toOption = none ∧ (parseRequestBody bareEnv {} y.2 ()).1.toOption = some () ∧
       (parseRequestBody bareEnv {} y.2 ()).2.1.post = none) ∧
    (let r0 := (parseRequestHeader bareEnv {} (reqOf [b!"POST http://h/ HTTP/1.1\r\nContent-Type: application/x-www-form-urlencoded\r\n\r\na=1"])).2.2
     let y := Req.setBodyStream pyCodecs { defaultCharset := b!"klingon" } ⟨[b!"b=2"]⟩ r0
     r0.bodyParsed = false ∧ y.1.toOption = none ∧ (parseRequestBody bareEnv {} y.2 ()).1.toOption = some () ∧
       (parseRequestBody bareEnv {} y.2 ()).2.1.post = some (.query ⟨[(Py.toU b!"b", Py.toU b!"2")], false⟩)) := by
  decide +kernel

end

end Verif
