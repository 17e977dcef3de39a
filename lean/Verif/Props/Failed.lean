import Verif.Props.Request
/-!
# C144: after a failed parse

A parse that raises should leave nothing half done: `POST` and `FILES` stay as they were, which is proved for every stream
and every error.  But the bytes that were read are gone and nothing is remembered of the failure, so `parse()` called
again reports success: with the old `POST` if the whole body had been read, and with the rest of the form otherwise.
-/

namespace Verif
open Spec

section
variable {ρ σ F : Type} [Producer ρ]

/-- **C144** (partial).  If `parse()` raises, whatever the stream, the handlers and the exception, `POST` and `FILES` are
as before and the body does not count as parsed. -/
theorem C144_partial (E : Env ρ σ F) (S : Settings) (r : Req ρ σ F) (w : σ) {e T r' w'}
    (h : parseRequest E S r w = (.error e, T, r', w')) :
    r'.post = r.post ∧ r'.files = r.files ∧ r'.bodyParsed = r.bodyParsed := by
  unfold parseRequest at h
  have hf := parseRequestHeader_frame E S r
  generalize parseRequestHeader E S r = z at h hf
  obtain ⟨o, S1, r1⟩ := z
  obtain ⟨f1, f2, f3, _, _⟩ := hf
  simp only at f1 f2 f3
  cases o with
  | error e' =>
    simp only [Prod.mk.injEq] at h
    obtain ⟨_, _, rfl, _⟩ := h
    exact ⟨f2, f3, f1⟩
  | ok _ =>
    simp only at h
    have key : ∀ {e r2 w2}, parseRequestBody E S1 r1 w = (.error e, r2, w2) →
        r2.post = r1.post ∧ r2.files = r1.files ∧ r2.bodyParsed = r1.bodyParsed := by
      intro e r2 w2 hx
      unfold parseRequestBody at hx
      split at hx
      · simp at hx
      · generalize E.load w = z at hx
        obtain ⟨o, w3⟩ := z
        cases o with
        | error e' =>
          simp only [Prod.mk.injEq] at hx
          obtain ⟨_, rfl, _⟩ := hx
          exact ⟨rfl, rfl, rfl⟩
        | ok H =>
          simp only at hx
          split at hx
          · have f := markError_frame E.C S1 .requestHeaderParse { r1 with handlers := some H }
            generalize markError E.C S1 .requestHeaderParse { r1 with handlers := some H } = z at f hx
            simp only [Prod.mk.injEq] at hx
            obtain ⟨_, rfl, _⟩ := hx
            exact ⟨f.post, f.files, f.bodyParsed⟩
          · unfold parseBodyStream at hx
            simp only at hx
            generalize r1.stream.read (some 1) = z at hx
            obtain ⟨o, s⟩ := z
            cases o with
            | error e' =>
              simp only [Prod.mk.injEq] at hx
              obtain ⟨_, rfl, _⟩ := hx
              exact ⟨rfl, rfl, rfl⟩
            | ok data =>
              simp only at hx
              split at hx
              · split at hx
                · simp only [Prod.mk.injEq] at hx
                  obtain ⟨_, rfl, _⟩ := hx
                  exact ⟨rfl, rfl, rfl⟩
                · simp at hx
              · generalize s.unget data = z at hx
                obtain ⟨o, s2⟩ := z
                cases o with
                | error e' =>
                  simp only [Prod.mk.injEq] at hx
                  obtain ⟨_, rfl, _⟩ := hx
                  exact ⟨rfl, rfl, rfl⟩
                | ok _ =>
                  simp only at hx
                  have f := parseByType_frame E S1 H
                    { { { r1 with handlers := some H } with stream := s } with stream := s2 } w3
                  generalize parseByType E S1 H
                    { { { r1 with handlers := some H } with stream := s } with stream := s2 } w3 = z at f hx
                  obtain ⟨o, r3, w4⟩ := z
                  cases o with
                  | error e' =>
                    simp only [Prod.mk.injEq] at hx
                    obtain ⟨_, rfl, _⟩ := hx
                    exact ⟨f.post, f.files, f.bodyParsed⟩
                  | ok _ =>
                    simp only [Prod.mk.injEq] at hx
                    obtain ⟨h1, rfl, _⟩ := hx
                    rcases finishBody_cases E.C S1 r3 with ⟨_, _, g, _⟩ | ⟨u, g⟩
                    · exact ⟨g.post.trans f.post, g.files.trans f.files, g.bodyParsed.trans f.bodyParsed⟩
                    · rw [g] at h1; simp at h1
    generalize hz : parseRequestBody E S1 r1 w = z at h
    obtain ⟨o, r2, w2⟩ := z
    simp only [Prod.mk.injEq] at h
    obtain ⟨rfl, _, rfl, _⟩ := h
    obtain ⟨g1, g2, g3⟩ := key hz
    exact ⟨g1.trans f2, g2.trans f3, g3.trans f1⟩

theorem parseByType_form {E : Env ρ σ F} {S : Settings} {H : HandlerOps ρ σ F} {r : Req ρ σ F} {w : σ}
    (hct : r.contentType = some (some b!"application/x-www-form-urlencoded")) {x r'}
    (hb : bodyCore S r = (.ok x, r')) {e} (hq : queryDict E.C S (some x) false = .error e) :
    parseByType E S H r w = (.error e, r', w) := by
  unfold parseByType
  rw [hct]
  simp only
  rw [if_neg (by decide), if_pos trivial, hb]
  simp only
  rw [hq]

/-- **C144 is false** of urlencoded forms, of every one that is refused: if the body is within the memory limit and its
fields are refused, as too many are, `parse_request_body` called again returns without an exception, and `POST` is
what it was before the request came. -/
theorem C144_form_refuted (L : Lawful ρ) (k : Nat) (hk : k ≤ 37) (E : Env ρ σ F) (S : Settings) (r : Req ρ σ F)
    (w : σ) (hs : SK L k r.stream) (hh : r.headerParsed = true) (hp : r.bodyParsed = false) (hb : r.body_ = none)
    (hct : r.contentType = some (some b!"application/x-www-form-urlencoded")) (hne : L.sc r.stream ≠ [])
    (hm : Allowed S.dataMaxMemory (L.sc r.stream).length) {H w1} (hl : E.load w = (.ok H, w1))
    {H2 w2} (hl2 : E.load w1 = (.ok H2, w2)) {e} (hq : queryDict E.C S (some (.b (L.sc r.stream))) false = .error e)
    {q} (hq0 : queryDict E.C S none false = .ok q) :
    ∃ r1 r2, parseRequestBody E S r w = (.error e, r1, w1) ∧ parseRequestBody E S r1 w1 = (.ok (), r2, w2) ∧
      r2.post = r.post ∧ r2.files = r.files := by
  obtain ⟨s1, a1, a2, a3, _⟩ := hs.read (by omega) 1
  have a1' : r.stream.read (some 1) = (.ok ((L.sc r.stream).take 1), s1) := a1
  have htake : (L.sc r.stream).take 1 ≠ [] := by
    cases hc : L.sc r.stream with
    | nil => exact absurd hc hne
    | cons x t => simp
  obtain ⟨s2, b1, b2, b3⟩ := a2.unget (by omega) ((L.sc r.stream).take 1)
  have hsc : L.sc s2 = L.sc r.stream := by rw [b3, a3, List.take_append_drop]
  obtain ⟨s3, c1, _, c3⟩ := readBody_spec (by omega) S { { { r with handlers := some H } with stream := s1 } with stream := s2 } b2
  rcases c3 with ⟨_, c4, c5⟩ | ⟨c4, _⟩
  · simp only [hsc] at c5
    have hbt : parseByType E S H { r with handlers := some H, stream := s2 } w1 =
        (.error e, { r with handlers := some H, stream := s3, body_ := some (.b (L.sc r.stream)) }, w1) := by
      apply parseByType_form (x := .b (L.sc r.stream)) (hct := by exact hct) (hq := hq)
      unfold bodyCore
      simp only
      rw [if_neg (by rw [hp]; simp), if_neg (by rw [hp]; simp), hb]
      rw [hb] at c5
      exact c5
    have e1 : parseRequestBody E S r w = (.error e, { { { { r with handlers := some H } with stream := s1 } with
        stream := s2 } with stream := s3, body_ := some (.b (L.sc r.stream)) }, w1) := by
      unfold parseRequestBody
      rw [if_neg (by rw [hp]; simp), hl]
      simp only
      rw [if_neg (by rw [hh]; simp)]
      unfold parseBodyStream
      simp only
      rw [a1']
      simp only
      rw [if_neg htake, b1]
      simp only
      rw [hbt]
    obtain ⟨s4, d1, _, _, _⟩ := c1.read (by omega) 1
    refine ⟨_, { r with handlers := some H2, stream := s4, body_ := some (.b (L.sc r.stream)),
                        post_ := some (.query q), files_ := some [] }, e1, ?_, rfl, rfl⟩
    have d1' : s3.read (some 1) = (.ok ((L.sc s3).take 1), s4) := d1
    unfold parseRequestBody
    simp only
    rw [if_neg (by rw [hp]; simp), hl2]
    simp only
    rw [if_neg (by rw [hh]; simp)]
    unfold parseBodyStream
    simp only
    rw [d1', c4]
    simp only [List.take_nil, if_true]
    rw [hq0]
  · rw [hsc] at c4
    rw [(withinLimit_iff _ _).2 hm] at c4
    simp at c4

end

/-- A part of a form with one field. -/
def fieldPart (n v : Bytes) : Bytes :=
  b!"--~\r\nContent-Disposition: form-data; name=\"" ++ n ++ b!"\"\r\n\r\n" ++ v ++ b!"\r\n"

/-- An environment whose upload handler asks for chunks of 16 bytes. -/
def smallEnv : Env Source Unit Unit :=
  { bareEnv with load := fun _ => (.ok { bareHandler with chunkSize := fun _ => some 16 }, ()) }

/-- **C144 is false** of uploads: a form of four fields is refused because one is allowed, and `parse()` called again
succeeds with the last field. -/
theorem C144_upload_refuted :
    let first := parseRequest smallEnv { maxFields := some 1 }
      (reqOf [b!"POST http://h/ HTTP/1.1\r\nContent-Type: multipart/form-data; boundary=~\r\nContent-Length: 9\r\n\r\n",
        fieldPart b!"a" b!"1" ++ fieldPart b!"b" b!"2" ++ fieldPart b!"c" b!"3" ++ fieldPart b!"d" b!"4" ++
          b!"--~--\r\n"]) ()
    let second := parseRequest smallEnv first.2.1 first.2.2.1 first.2.2.2
    first.1.toOption = none ∧ second.1.toOption = some () ∧ second.2.2.1.bodyParsed = true ∧
    (match second.2.2.1.post with
      | some (.form m) => (items m).map (fun i => (i.1, i.2.data))
      | _ => []) = [(b!"d", b!"4")] := by decide +kernel

/-- A urlencoded form with a field too many. -/
example :
    let first := parseRequest bareEnv { maxFields := some 1 }
      (reqOf [b!"POST http://h/ HTTP/1.1\r\nContent-Type: application/x-www-form-urlencoded\r\n\r\na=1&b=2"]) ()
    let second := parseRequest bareEnv first.2.1 first.2.2.1 first.2.2.2
    first.1.toOption = none ∧ second.1.toOption = some () ∧ second.2.2.1.post = first.2.2.1.post ∧
    first.2.2.1.post = none := by decide +kernel

/-- The same from the theorem. -/
example : ∃ r1 r2, parseRequestBody bareEnv { maxFields := some 1 }
      { reqOf [b!"a=1&b=2"] with
        headerParsed := true, contentType := some (some b!"application/x-www-form-urlencoded") } () = (.error .tooManyFieldsSent, r1, ()) ∧
    parseRequestBody bareEnv { maxFields := some 1 } r1 () = (.ok (), r2, ()) ∧ r2.post = none ∧ r2.files = none :=
  C144_form_refuted Source.lawful 0 (by omega) bareEnv { maxFields := some 1 } _ () (SK.fresh _ _ trivial) rfl rfl rfl rfl
    (by simp [reqOf, sc_fresh]) ⟨_, rfl, by simp [reqOf, sc_fresh]⟩ rfl rfl (by rfl) (by rfl)

end Verif
