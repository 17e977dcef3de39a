import Verif.Spec.Request
import Verif.Proofs.Request
import Verif.Proofs.Builtin
import Verif.Props.Quote
/-!
# The request object (C34, C38–C47)

`L.content p` is what the input iterator `p` will yield, `L.sc s` what can still be read from the
stream `s` (pushed back bytes first).  The theorems hold for every lawful producer, in particular
for every chunking of every input (`Source.lawful`).
-/

namespace Verif
open Spec

variable {ρ σ F : Type} [Producer ρ]

/-! ### Handlers and requests for the examples -/

/-- One handler that does nothing. -/
def bareHandler : HandlerOps Source Unit Unit where
  count := 1
  chunkSize _ := none
  rawInput _ _ s _ := (.ok none, s, ())
  newFile _ _ _ := (.ok (), ())
  receive _ d _ _ := (.ok (some d), ())
  fileComplete _ _ _ := (.ok none, ())
  truthy _ _ := true
  uploadComplete _ _ := (.ok false, ())
  close _ _ := (.ok (), ())

/-- An environment with that handler. -/
def bareEnv : Env Source Unit Unit where
  C := latin1
  up := []
  load _ := (.ok bareHandler, ())
  fuel64 := 0

/-- A request over the given chunks. -/
def reqOf (chunks : List Bytes) : Req Source Unit Unit :=
  { stream := LazyStream.mk' ⟨chunks⟩, info := some {} }

/-! ### C34 -/

/-- **C34**.  On a new input stream the header parser takes exactly what precedes the first empty
line and leaves exactly what follows it, for every chunking and every `MAX_HEADER_SIZE ≥ 1`, also
when the header turns out to be malformed. -/
theorem C34_split (L : Lawful ρ) (E : Env ρ σ F) (S : Settings) (hS : 1 ≤ S.maxHeaderSize)
    (r : Req ρ σ F) (hr : r.headerParsed = false) (p : ρ) (hp : r.stream = LazyStream.mk' p)
    (hI : L.Inv p) (head body : Bytes) (h : FirstEnd (L.content p) head body) :
    ∃ s', parseRequestHeader E S r =
        applyHeader E head S { r with stream := s', headerParsed := true } ∧
      (∃ s2, (parseRequestHeader E S r).2.2.stream.read none = (.ok body, s2)) := by
  obtain ⟨i, h1, rfl, rfl⟩ := firstEnd_iff.1 h
  have hc : L.sc r.stream = L.content p := by rw [hp]; rfl
  rcases parseRequestHeader_spec (L := L) (k := 0) (by omega) E S hS r hr
      (by rw [hp]; exact SK.fresh L p hI) with ⟨j, s', a1, a2, a3, a4⟩ | ⟨a1, _⟩
  · rw [hc] at a1 a2 a4
    rw [h1] at a1
    cases a1
    refine ⟨s', a2, ?_⟩
    rw [a2, (applyHeader_frame E _ S _).1.stream]
    obtain ⟨s2, b1, _⟩ := (a3.toSOK (by omega)).readAll
    rw [a4] at b1
    exact ⟨s2, b1⟩
  · rw [hc, h1] at a1; cases a1

/-- **C34**, no empty line: `InvalidHttpRequest`, after all of the input has been read. -/
theorem C34_unterminated (L : Lawful ρ) (E : Env ρ σ F) (S : Settings) (hS : 1 ≤ S.maxHeaderSize)
    (r : Req ρ σ F) (hr : r.headerParsed = false) (p : ρ) (hp : r.stream = LazyStream.mk' p)
    (hI : L.Inv p) (h : NoEnd (L.content p)) :
    ∃ s', parseRequestHeader E S r =
        (.error .invalidHttpRequest, S, { r with stream := s', headerParsed := true }) ∧
      L.sc s' = [] := by
  have hc : L.sc r.stream = L.content p := by rw [hp]; rfl
  rcases parseRequestHeader_spec (L := L) (k := 0) (by omega) E S hS r hr
      (by rw [hp]; exact SK.fresh L p hI) with ⟨j, s', a1, _⟩ | ⟨_, s', a2, _, a4⟩
  · rw [hc, noEnd_iff.1 h] at a1; cases a1
  · exact ⟨s', a2, a4⟩

/-- **C34**, chunking and `MAX_HEADER_SIZE` do not matter: the outcome and the attributes are those
of the header text. -/
theorem C34_chunking (L : Lawful ρ) (E : Env ρ σ F) (S : Settings) (hS : 1 ≤ S.maxHeaderSize)
    (r : Req ρ σ F) (hr : r.headerParsed = false) (p q : ρ) (hp : r.stream = LazyStream.mk' p)
    (hIp : L.Inv p) (hIq : L.Inv q) (head body : Bytes) (h : FirstEnd (L.content p) head body)
    (hq : L.content q = L.content p) :
    ∃ s', parseRequestHeader E S { r with stream := LazyStream.mk' q } =
      ((parseRequestHeader E S r).1, (parseRequestHeader E S r).2.1,
        { (parseRequestHeader E S r).2.2 with stream := s' }) := by
  obtain ⟨s1, e1, _⟩ := C34_split L E S hS r hr p hp hIp head body h
  obtain ⟨s2, e2, _⟩ := C34_split L E S hS { r with stream := LazyStream.mk' q } hr q rfl hIq head
    body (by rw [hq]; exact h)
  rw [e1, e2]
  have := applyHeader_overS E head S { r with stream := s1, headerParsed := true } s2
  exact ⟨s2, this⟩

example : FirstEnd b!"GET http://h/ HTTP/1.1\r\n\r\na\r\n\r\nb" b!"GET http://h/ HTTP/1.1"
    b!"a\r\n\r\nb" := firstEnd_iff.2 ⟨22, by decide +kernel, by decide +kernel, by decide +kernel⟩

example : let r := (parseRequestHeader bareEnv {} (reqOf [b!"GET http://h:8/a?b=c HTT", b!"P/1.1\r",
      b!"\nA: b\r\n\r\nbo", b!"dy"])).2.2
    r.method = some b!"GET" ∧ r.host = some b!"h" ∧ r.port = some (.text b!"8") ∧
      r.path = some b!"/a" ∧ (r.stream.read none).1.toOption = some b!"body" := by
  decide +kernel

/-! ### C38 -/

theorem applyHeader_ok {E : Env ρ σ F} {header : Bytes} {S S' : Settings} {r r' : Req ρ σ F}
    (h : applyHeader E header S r = (.ok (), S', r')) :
    ∃ line hdrs l host rest, parseRequestHeaders (header ++ b!"\r\n") = .ok (line, hdrs) ∧
      parseRequestLine E.up line = .ok l ∧ hostText l hdrs = .ok (host, rest) ∧
      r'.method = some l.method ∧ r'.path = some l.path ∧ r'.proto = some l.proto ∧
      r'.scheme = some (if l.scheme ≠ [] then Py.lower l.scheme else b!"UNKNOWN") ∧
      r'.host = some (splitDomainPort host).1 ∧
      r'.port = some (portOf l.scheme (splitDomainPort host).2) := by
  unfold applyHeader at h
  cases h1 : parseRequestHeaders (header ++ b!"\r\n") with
  | error e => rw [h1] at h; cases h
  | ok lh =>
    obtain ⟨line, hdrs⟩ := lh
    rw [h1] at h
    simp only at h
    cases h2 : parseRequestLine E.up line with
    | error e => rw [h2] at h; cases h
    | ok l =>
      rw [h2] at h
      simp only at h
      cases h3 : hostText l hdrs with
      | error e => rw [h3] at h; cases h
      | ok hh =>
        obtain ⟨host, rest⟩ := hh
        rw [h3] at h
        simp only at h
        refine ⟨line, hdrs, l, host, rest, rfl, h2, h3, ?_⟩
        generalize hr1 : ({ r with scheme := _, host := _, port := _, method := _, path := _,
                                   proto := _ } : Req ρ σ F) = r1 at h
        have key : ∀ q : Req ρ σ F, (q.method = r1.method ∧ q.path = r1.path ∧
            q.proto = r1.proto ∧ q.scheme = r1.scheme ∧ q.host = r1.host ∧ q.port = r1.port) →
            (q.method = some l.method ∧ q.path = some l.path ∧ q.proto = some l.proto ∧
            q.scheme = some (if l.scheme ≠ [] then Py.lower l.scheme else b!"UNKNOWN") ∧
            q.host = some (splitDomainPort host).1 ∧
            q.port = some (portOf l.scheme (splitDomainPort host).2)) := by
          rintro q ⟨a1, a2, a3, a4, a5, a6⟩
          rw [a1, a2, a3, a4, a5, a6, ← hr1]
          exact ⟨rfl, rfl, rfl, rfl, rfl, rfl⟩
        apply key
        have c1 : (applyContentType E.C rest S r1).2.2.method = r1.method ∧
            (applyContentType E.C rest S r1).2.2.path = r1.path ∧
            (applyContentType E.C rest S r1).2.2.proto = r1.proto ∧
            (applyContentType E.C rest S r1).2.2.scheme = r1.scheme ∧
            (applyContentType E.C rest S r1).2.2.host = r1.host ∧
            (applyContentType E.C rest S r1).2.2.port = r1.port := by
          unfold applyContentType
          cases rest.get? b!"Content-Type" with
          | none => exact ⟨rfl, rfl, rfl, rfl, rfl, rfl⟩
          | some vs =>
            simp only
            cases parseHeader E.C (vs.getLast?.getD []) with
            | error e => exact ⟨rfl, rfl, rfl, rfl, rfl, rfl⟩
            | ok cp =>
              obtain ⟨ct, params⟩ := cp
              simp only
              cases params.get? b!"charset" <;> exact ⟨rfl, rfl, rfl, rfl, rfl, rfl⟩
        generalize applyContentType E.C rest S r1 = y at h c1
        obtain ⟨o, S2, r2⟩ := y
        cases o with
        | error e => cases h
        | ok u =>
          simp only at h c1
          unfold applyQuery at h
          cases hi : r2.info with
          | none => rw [hi] at h; cases h
          | some m =>
            rw [hi] at h
            simp only at h
            split at h
            · cases h
            · simp only [Prod.mk.injEq, true_and] at h
              rw [← h.2]; exact c1

theorem portOf_is (scheme port : Bytes) : PortIs scheme port (portOf scheme port) := by
  unfold portOf
  refine ⟨fun h => by rw [if_pos h], fun h h1 => ?_, fun h h1 => ?_, fun h h1 h2 => ?_⟩
  · rw [if_neg (by simp [h]), if_pos h1]
  · rw [if_neg (by simp [h]), if_neg (by rw [h1]; decide), if_pos h1]
  · rw [if_neg (by simp [h]), if_neg h1, if_neg h2]

/-- **C38**.  After header parsing the scheme is the lower-cased scheme of the request URI, or
`UNKNOWN` if it has none; the port is the one of the host if there is one, else 443, 80 or 65536
according to that scheme; the host is the one of the URI, else the last `Host` header. -/
theorem C38_port_and_scheme (L : Lawful ρ) (E : Env ρ σ F) (S S' : Settings) (r r' : Req ρ σ F)
    (hS : 1 ≤ S.maxHeaderSize) (hr : r.headerParsed = false) (p : ρ)
    (hp : r.stream = LazyStream.mk' p) (hI : L.Inv p)
    (h : parseRequestHeader E S r = (.ok (), S', r')) :
    ∃ head body line hdrs l host, FirstEnd (L.content p) head body ∧
      parseRequestHeaders (head ++ b!"\r\n") = .ok (line, hdrs) ∧
      parseRequestLine E.up line = .ok l ∧
      (l.domain ≠ [] → host = l.domain) ∧
      (l.domain = [] → ∃ vs, hdrs.get? b!"Host" = some vs ∧ host = vs.getLast?.getD []) ∧
      (l.scheme = [] → r'.scheme = some b!"UNKNOWN") ∧
      (l.scheme ≠ [] → r'.scheme = some (Py.lower l.scheme)) ∧
      ∃ port, r'.host = some (splitDomainPort host).1 ∧ r'.port = some port ∧
        PortIs l.scheme (splitDomainPort host).2 port := by
  have hc : L.sc r.stream = L.content p := by rw [hp]; rfl
  rcases parseRequestHeader_spec (L := L) (k := 0) (by omega) E S hS r hr
      (by rw [hp]; exact SK.fresh L p hI) with ⟨i, s', a1, a2, _⟩ | ⟨_, s', a2, _⟩
  · rw [hc] at a1 a2
    rw [a2] at h
    obtain ⟨line, hdrs, l, host, rest, b1, b2, b3, _, _, _, b7, b8, b9⟩ := applyHeader_ok h
    refine ⟨_, _, line, hdrs, l, host, firstEnd_iff.2 ⟨i, a1, rfl, rfl⟩, b1, b2, ?_, ?_, ?_, ?_,
      _, b8, b9, portOf_is _ _⟩
    · intro hd
      rw [hostText, if_pos hd] at b3
      cases b3; rfl
    · intro hd
      rw [hostText, if_neg (by simp [hd])] at b3
      cases hg : hdrs.get? b!"Host" with
      | none => rw [hg] at b3; cases b3
      | some vs =>
        rw [hg] at b3
        simp only [Except.ok.injEq, Prod.mk.injEq] at b3
        exact ⟨vs, rfl, b3.1.symm⟩
    · intro hs; rw [b7, if_neg (by simp [hs])]
    · intro hs; rw [b7, if_pos hs]
  · rw [a2] at h; cases h

example : let f := fun t : Bytes => (parseRequestHeader bareEnv {} (reqOf [t])).2.2
    ((f b!"GET https://h/ HTTP/1.1\r\nA: b\r\n\r\n").port, (f b!"GET http://h/ HTTP/1.1\r\nA: b\r\n\r\n").port,
      (f b!"GET / HTTP/1.1\r\nHost: h\r\n\r\n").port, (f b!"GET / HTTP/1.1\r\nHost: h:1\r\n\r\n").port)
    = (some (.num 443), some (.num 80), some (.num 65536), some (.text b!"1")) := by decide +kernel

/-! ### C39 -/

/-- Once the flag is set the call does nothing. -/
theorem C39_second (E : Env ρ σ F) (S : Settings) (r : Req ρ σ F) (h : r.headerParsed = true) :
    parseRequestHeader E S r = (.ok (), S, r) := by
  unfold parseRequestHeader; rw [if_pos h]

/-- **C39**, for streams that do not raise and `MAX_HEADER_SIZE ≥ 0`: after a first call, successful
or not, every later call (with whatever settings) returns and changes nothing. -/
theorem C39_partial (L : Lawful ρ) (k : Nat) (hk : k ≤ 38) (E : Env ρ σ F) (S S2 : Settings)
    (hS : 0 ≤ S.maxHeaderSize) (r : Req ρ σ F) (hs : SK L k r.stream) :
    parseRequestHeader E S2 (parseRequestHeader E S r).2.2 =
      (.ok (), S2, (parseRequestHeader E S r).2.2) := by
  apply C39_second
  by_cases hr : r.headerParsed = true
  · rw [C39_second E S r hr]; exact hr
  · have hr : r.headerParsed = false := by simpa using hr
    by_cases h1 : 1 ≤ S.maxHeaderSize
    · rcases parseRequestHeader_spec hk E S h1 r hr hs with ⟨i, s', _, a2, _⟩ | ⟨_, s', a2, _⟩
      · rw [a2, (applyHeader_frame E _ S _).1.headerParsed]
      · rw [a2]
    · obtain ⟨e, s', a2, _⟩ := parseRequestHeader_nonpos (by omega) E S (by omega) r hr hs
      rw [a2]
      simp; omega

/-- **C39** is false in general: when reading raises (here: the stream has been closed) or
`MAX_HEADER_SIZE` is negative, the flag is not set and the second call raises again. -/
theorem C39_refuted :
    (∀ (E : Env Source Unit Unit) (S : Settings) (r : Req Source Unit Unit),
      r.headerParsed = false → S.maxHeaderSize < 0 →
      parseRequestHeader E S r = (.error .assertionError, S, r)) ∧
    (∀ (E : Env Closed Unit Unit) (S : Settings) (r : Req Closed Unit Unit),
      r.headerParsed = false → 1 ≤ S.maxHeaderSize → r.stream.leftover = [] →
      ∃ s', s'.leftover = [] ∧ parseRequestHeader E S r =
        (.error .typeError, S, { r with stream := s' })) := by
  constructor
  · intro E S r hr hS
    unfold parseRequestHeader
    rw [if_neg (by rw [hr]; simp)]
    unfold headerLoop
    have : r.stream.read (some S.maxHeaderSize) = (.error .assertionError, r.stream) := by
      unfold LazyStream.read
      simp only
      rw [if_pos hS]
    rw [this]
    simp only
    rw [← hr]
  · intro E S r hr hS hl
    have : ∃ s', s'.leftover = [] ∧
        r.stream.read (some S.maxHeaderSize) = (.error .typeError, s') := by
      unfold LazyStream.read
      simp only
      rw [if_neg (by omega)]
      unfold LazyStream.readLoop
      rw [if_neg (by omega)]
      have hn : r.stream.next = (.error .typeError, r.stream) := by
        unfold LazyStream.next
        rw [if_neg (by simp [hl])]
        rfl
      rw [hn]
      exact ⟨_, hl, rfl⟩
    obtain ⟨s', h1, h2⟩ := this
    refine ⟨s', h1, ?_⟩
    unfold parseRequestHeader
    rw [if_neg (by rw [hr]; simp)]
    unfold headerLoop
    rw [h2]
    simp only
    rw [← hr]

example : (parseRequestHeader bareEnv {} (reqOf [b!"nonsense"])).1.toOption = none ∧
    (parseRequestHeader bareEnv {} (parseRequestHeader bareEnv {} (reqOf [b!"nonsense"])).2.2).1.toOption
      = some () := by decide +kernel

/-! ### C40 -/

/-- **C40**.  A successful `parse_request_body` on a stream with something left sets the flag, and
then every further call changes nothing, not even the handlers. -/
theorem C40_once (E : Env ρ σ F) (S : Settings) (r r' : Req ρ σ F) (w w' : σ) (d : Bytes)
    (s1 : LazyStream ρ) (hd : r.stream.read (some 1) = (.ok d, s1)) (hne : d ≠ [])
    (h : parseRequestBody E S r w = (.ok (), r', w')) :
    r'.bodyParsed = true ∧
      ∀ (E2 : Env ρ σ F) (S2 : Settings) (w2 : σ), parseRequestBody E2 S2 r' w2 = (.ok (), r', w2) := by
  have hp : r'.bodyParsed = true := by
    unfold parseRequestBody at h
    by_cases hb : r.bodyParsed = true
    · rw [if_pos hb] at h; cases h; exact hb
    · rw [if_neg hb] at h
      rcases hl : E.load w with ⟨o, w1⟩
      rw [hl] at h
      cases o with
      | error e => cases h
      | ok H =>
        simp only at h
        split at h
        · cases h
        · unfold parseBodyStream at h
          simp only at h
          rw [hd] at h
          simp only at h
          rw [if_neg hne] at h
          rcases hu : s1.unget d with ⟨o, s2⟩
          rw [hu] at h
          cases o with
          | error e => cases h
          | ok u =>
            simp only at h
            generalize parseByType E S H _ w1 = y at h
            obtain ⟨o, r2, w2⟩ := y
            cases o with
            | error e => cases h
            | ok u =>
              simp only at h
              rcases finishBody_cases E.C S r2 with ⟨e, a1, _⟩ | ⟨u, a1⟩
              · simp only [Prod.mk.injEq] at h
                rw [a1] at h; cases h.1
              · simp only [Prod.mk.injEq] at h
                rw [a1] at h
                rw [← h.2.1]
  exact ⟨hp, fun E2 S2 w2 => by unfold parseRequestBody; rw [if_pos hp]⟩

/-- An empty body is parsed again each time (and gives the same): the flag is not set. -/
theorem C40_empty (L : Lawful ρ) (k : Nat) (hk : k ≤ 39) (E : Env ρ σ F) (S : Settings)
    (r r' : Req ρ σ F) (w w' : σ) (hs : SK L k r.stream) (h0 : L.sc r.stream = [])
    (hb : r.bodyParsed = false) (h : parseRequestBody E S r w = (.ok (), r', w')) :
    r'.bodyParsed = false ∧ r'.post = r.post ∧ r'.files = r.files ∧ r'.body_ = r.body_ := by
  unfold parseRequestBody at h
  rw [if_neg (by rw [hb]; simp)] at h
  rcases hl : E.load w with ⟨o, w1⟩
  rw [hl] at h
  cases o with
  | error e => cases h
  | ok H =>
    simp only at h
    split at h
    · cases h
    · unfold parseBodyStream at h
      simp only at h
      obtain ⟨s1, e, _⟩ := hs.read hk 1
      have e' : r.stream.read (some 1) = (.ok ((L.sc r.stream).take 1), s1) := e
      rw [e', h0] at h
      simp only [List.take_nil, if_true] at h
      split at h
      · cases h
      · simp only [Prod.mk.injEq, true_and] at h
        rw [← h.1]
        exact ⟨hb, rfl, rfl, rfl⟩

example : let r := (parseRequest bareEnv {} (reqOf [b!"POST http://h/ HTTP/1.1\r\nContent-Type: ",
      b!"application/x-www-form-urlencoded\r\n\r\na=1&b=2"]) ()).2.2.1
    r.bodyParsed = true ∧ r.post = some (.query ⟨[(Py.toU b!"a", Py.toU b!"1"),
      (Py.toU b!"b", Py.toU b!"2")], false⟩) := by decide +kernel

/-! ### C41 -/

theorem withinLimit_iff (limit : Option Int) (n : Nat) :
    withinLimit limit n = true ↔ Allowed limit n := by
  cases limit <;> simp [withinLimit, Allowed]

/-- **C41**.  With the header parsed and the body not yet read, `body()` returns the remaining bytes
if the limit allows that many, and otherwise raises `RequestDataTooBig`, for every body, limit and
chunking. -/
theorem C41_body_limit (L : Lawful ρ) (k : Nat) (hk : k ≤ 39) (E : Env ρ σ F) (S : Settings)
    (r : Req ρ σ F) (hs : SK L k r.stream) (hh : r.headerParsed = true)
    (hp : r.bodyParsed = false) (hb : r.body_ = none) :
    (Allowed S.dataMaxMemory (L.sc r.stream).length →
      ∃ r', body E S r = (.ok (.b (L.sc r.stream)), S, r')) ∧
    (¬ Allowed S.dataMaxMemory (L.sc r.stream).length →
      ∃ r', body E S r = (.error .requestDataTooBig, S, r')) := by
  have e : body E S r = ((readBody S r).1, S, (readBody S r).2) := by
    unfold body
    rw [if_pos (.inl hh)]
    unfold bodyCore
    rw [if_neg (by simp [hp]), if_neg (by simp [hp]), hb]
  rw [e, ← withinLimit_iff]
  obtain ⟨s', _, _, h⟩ := readBody_spec hk S r hs
  rcases h with ⟨h1, _, h2⟩ | ⟨h1, h2⟩
  · exact ⟨fun _ => ⟨_, by rw [h2]⟩, fun h => absurd h1 h⟩
  · exact ⟨fun h => absurd h (by rw [h1]; decide), fun _ => ⟨_, by rw [h2]⟩⟩

example : (body bareEnv { dataMaxMemory := some 4 } { reqOf [b!"bo", b!"dy"] with headerParsed := true }
      ).1.toOption = some (.b b!"body") ∧
    (body bareEnv { dataMaxMemory := some 3 } { reqOf [b!"bo", b!"dy"] with headerParsed := true }
      ).1.toOption = none := by decide +kernel

/-! ### C42 -/

/-- The state after `body()` has returned `v`. -/
structure BodyRead (L : Lawful ρ) (k : Nat) (v : PyStr) (r : Req ρ σ F) : Prop where
  header : r.headerParsed = true
  stored : r.body_ = some v
  open_ : r.bodyParsed = true → ∃ ct, r.contentType = some ct ∧ isFormType ct = false
  ended : r.bodyParsed = true ∨ SK L k r.stream ∧ L.sc r.stream = []

theorem BodyRead.body_eq {L : Lawful ρ} {k : Nat} {v : PyStr} {r : Req ρ σ F}
    (h : BodyRead L k v r) (E : Env ρ σ F) (S : Settings) : body E S r = (.ok v, S, r) := by
  unfold Verif.body
  rw [if_pos (.inl h.header)]
  unfold bodyCore
  rw [if_neg (by
      rintro ⟨h1, h2⟩
      obtain ⟨ct, h3, _⟩ := h.open_ h1
      rw [h2] at h3; cases h3),
    if_neg (by
      rintro ⟨h1, h2⟩
      obtain ⟨ct, h3, h4⟩ := h.open_ h1
      rw [h3] at h2
      simp only [Option.getD_some] at h2
      rw [h4] at h2; cases h2), h.stored]

theorem BodyRead.run {L : Lawful ρ} {k : Nat} (hk : k ≤ 39) {v : PyStr} (E : Env ρ σ F)
    (ops : List ReqOp) : ∀ (S : Settings) (r : Req ρ σ F) (w : σ), BodyRead L k v r →
      BodyRead L k v (Spec.run E ops (S, r, w)).2.1 := by
  induction ops with
  | nil => intro S r w h; exact h
  | cons op ops ih =>
    intro S r w h
    cases op with
    | body =>
      simp only [Spec.run, h.body_eq E S]
      exact ih _ _ _ h
    | parseHeader =>
      simp only [Spec.run, C39_second E S r h.header]
      exact ih _ _ _ h
    | read n =>
      simp only [Spec.run]
      apply ih
      refine ⟨h.header, h.stored, h.open_, ?_⟩
      rcases h.ended with h1 | ⟨h1, h2⟩
      · exact .inl h1
      · right
        obtain ⟨s1, e, a1, a2, _⟩ := h1.read hk n
        simp only [e]
        exact ⟨a1, by rw [a2, h2]; simp⟩
    | parseBody =>
      simp only [Spec.run]
      apply ih
      rcases hb : r.bodyParsed with _ | _
      · have hend : SK L k r.stream ∧ L.sc r.stream = [] := by
          rcases h.ended with h1 | h1
          · rw [hb] at h1; cases h1
          · exact h1
        unfold parseRequestBody
        rw [if_neg (by rw [hb]; simp)]
        rcases E.load w with ⟨o, w1⟩
        cases o with
        | error e => exact h
        | ok H =>
          simp only
          rw [if_neg (by rw [h.header]; simp)]
          unfold parseBodyStream
          simp only
          obtain ⟨s1, e, a1, a2, _⟩ := hend.1.read hk 1
          have e' : r.stream.read (some 1) = (.ok ((L.sc r.stream).take 1), s1) := e
          have a3 : L.sc s1 = [] := by rw [a2, hend.2]; rfl
          rw [e', hend.2]
          simp only [List.take_nil, if_true]
          split
          · exact ⟨h.header, h.stored, h.open_, .inr ⟨a1, a3⟩⟩
          · exact ⟨h.header, h.stored, h.open_, .inr ⟨a1, a3⟩⟩
      · have : parseRequestBody E S r w = (.ok (), r, w) := by
          unfold parseRequestBody; rw [if_pos hb]
        rw [this]; exact h

/-- **C42**, stability: after `body()` has read the body and returned `v`, every later call returns
`v`, whatever calls (`body`, `parse_request_header`, `parse_request_body`, `read`) happen in
between, in whatever order and number, and whether they raise or not. -/
theorem C42_stable (L : Lawful ρ) (k : Nat) (hk : k ≤ 36) (E : Env ρ σ F) (S S1 : Settings)
    (r r1 : Req ρ σ F) (v : PyStr) (hs : SK L k r.stream) (hb : r.body_ = none)
    (h : body E S r = (.ok v, S1, r1)) (ops : List ReqOp) (w : σ) (S2 : Settings) :
    ∃ r2, body E S2 (run E ops (S1, r1, w)).2.1 = (.ok v, S2, r2) := by
  suffices H : BodyRead L (k + 2) v r1 from
    ⟨_, (BodyRead.run (by omega) E ops S1 r1 w H).body_eq E S2⟩
  have core : ∀ q q' : Req ρ σ F, SK L (k + 2) q.stream → q.body_ = none → q.headerParsed = true →
      bodyCore S1 q = (.ok v, q') → BodyRead L (k + 2) v q' := by
    intro q q' h1 h2 h3 h4
    unfold bodyCore at h4
    split at h4
    · cases h4
    · rename_i g1
      split at h4
      · cases h4
      · rename_i g2
        rw [h2] at h4
        simp only at h4
        obtain ⟨s', b1, _, b2⟩ := readBody_spec (by omega) S1 q h1
        rcases b2 with ⟨_, c2, c3⟩ | ⟨_, c3⟩
        · rw [c3] at h4
          simp only [Prod.mk.injEq, Except.ok.injEq] at h4
          obtain ⟨rfl, rfl⟩ := h4
          refine ⟨h3, rfl, ?_, .inr ⟨b1, c2⟩⟩
          intro hp
          cases hct : q.contentType with
          | none => exact absurd ⟨hp, hct⟩ g1
          | some ct =>
            refine ⟨ct, rfl, ?_⟩
            rw [hct] at g2
            simp only [Option.getD_some, not_and, Bool.not_eq_true] at g2
            exact g2 hp
        · rw [c3] at h4; cases h4
  unfold body at h
  by_cases hh : r.headerParsed = true
  · rw [if_pos (.inl hh)] at h
    rcases hc : bodyCore S r with ⟨x, q⟩
    rw [hc] at h
    simp only [Prod.mk.injEq] at h
    obtain ⟨rfl, rfl, rfl⟩ := h
    exact core r q (hs.mono (by omega)) hb hh hc
  · have hf : r.headerParsed = false := by simpa using hh
    split at h
    · rename_i hg
      rcases hg with hg | ⟨hp, hg⟩
      · exact absurd hg hh
      · exfalso
        unfold bodyCore at h
        rcases hg with hg | hg
        · rw [if_pos ⟨hp, hg⟩] at h; cases h
        · by_cases hct : r.contentType = none
          · rw [if_pos ⟨hp, hct⟩] at h; cases h
          · rw [if_neg (by simp [hct]), if_pos ⟨hp, hg⟩] at h; cases h
    · by_cases h1 : 1 ≤ S.maxHeaderSize
      · rcases parseRequestHeader_spec (by omega) E S h1 r hf hs with
          ⟨i, s', _, a2, a3, _⟩ | ⟨_, s', a2, _⟩
        · rw [a2] at h
          have fr := (applyHeader_frame E ((L.sc r.stream).take i) S
            { r with stream := s', headerParsed := true }).1
          generalize applyHeader E ((L.sc r.stream).take i) S
            { r with stream := s', headerParsed := true } = y at h fr
          obtain ⟨o, Sy, q⟩ := y
          cases o with
          | error e => cases h
          | ok u =>
            simp only at h fr
            rcases hc : bodyCore Sy q with ⟨x, q'⟩
            rw [hc] at h
            simp only [Prod.mk.injEq] at h
            obtain ⟨rfl, rfl, rfl⟩ := h
            refine core q q' (by rw [fr.stream]; exact a3) ?_ fr.headerParsed hc
            rcases fr.body_ with e | e
            · rw [e]; exact hb
            · exact e
        · rw [a2] at h; cases h
      · obtain ⟨e, s', a2, _⟩ := parseRequestHeader_nonpos (by omega) E S (by omega) r hf hs
        rw [a2] at h; cases h

/-- **C42**, after parsing: when the parsed body is not a form, `body()` keeps returning the stored
text. -/
theorem C42_parsed (L : Lawful ρ) (E : Env ρ σ F) (r : Req ρ σ F) (v : PyStr) (ct : Option Bytes)
    (hh : r.headerParsed = true) (hp : r.bodyParsed = true) (hb : r.body_ = some v)
    (hc : r.contentType = some ct) (hf : isFormType ct = false) (ops : List ReqOp) (w : σ)
    (S S2 : Settings) :
    ∃ r2, body E S2 (run E ops (S, r, w)).2.1 = (.ok v, S2, r2) :=
  ⟨_, (BodyRead.run (L := L) (k := 0) (by omega) E ops S r w
    ⟨hh, hb, fun _ => ⟨ct, hc, hf⟩, .inl hp⟩).body_eq E S2⟩

/-- **C42**, guard: after a form has been parsed every later `body()` raises
`RawPostDataException`, whatever calls happen in between. -/
theorem C42_guarded (E : Env ρ σ F) (r : Req ρ σ F) (ct : Option Bytes) (hh : r.headerParsed = true)
    (hp : r.bodyParsed = true) (hc : r.contentType = some ct)
    (hf : ct = some b!"application/x-www-form-urlencoded" ∨ ct = some b!"multipart/form-data")
    (ops : List ReqOp) (w : σ) (S S2 : Settings) :
    ∃ r2, body E S2 (run E ops (S, r, w)).2.1 = (.error .rawPostData, S2, r2) := by
  have hf' : isFormType ct = true := by simpa [isFormType] using hf
  have be : ∀ (S : Settings) (q : Req ρ σ F), q.headerParsed = true → q.bodyParsed = true →
      q.contentType = some ct → body E S q = (.error .rawPostData, S, q) := by
    intro S q h1 h2 h3
    unfold body
    rw [if_pos (.inl h1)]
    unfold bodyCore
    rw [if_neg (by simp [h3]), if_pos ⟨h2, by rw [h3]; exact hf'⟩]
  suffices H : ∀ (S : Settings) (r : Req ρ σ F) (w : σ), r.headerParsed = true →
      r.bodyParsed = true → r.contentType = some ct →
      (run E ops (S, r, w)).2.1.headerParsed = true ∧
      (run E ops (S, r, w)).2.1.bodyParsed = true ∧
      (run E ops (S, r, w)).2.1.contentType = some ct by
    obtain ⟨a1, a2, a3⟩ := H S r w hh hp hc
    exact ⟨_, be S2 _ a1 a2 a3⟩
  clear hh hp hc S r w
  induction ops with
  | nil => intro S r w h1 h2 h3; exact ⟨h1, h2, h3⟩
  | cons op ops ih =>
    intro S r w h1 h2 h3
    cases op with
    | body => simp only [run, be S r h1 h2 h3]; exact ih _ _ _ h1 h2 h3
    | parseHeader => simp only [run, C39_second E S r h1]; exact ih _ _ _ h1 h2 h3
    | parseBody =>
      have : parseRequestBody E S r w = (.ok (), r, w) := by
        unfold parseRequestBody; rw [if_pos h2]
      simp only [run, this]; exact ih _ _ _ h1 h2 h3
    | read n => simp only [run]; exact ih _ _ _ h1 h2 h3

example : let r0 := reqOf [b!"POST http://h/ HTTP/1.1\r\nA: b\r\n\r\nbo", b!"dy"]
    (body bareEnv {} r0).1.toOption = some (.b b!"body") ∧
    (body bareEnv {} (run bareEnv [.read 3, .parseBody, .parseHeader, .body]
      ((body bareEnv {} r0).2.1, (body bareEnv {} r0).2.2, ())).2.1).1.toOption
      = some (.b b!"body") := by decide +kernel

/-! ### C43 -/

theorem setStream_over {C : Codecs} {S : Settings} {p : ρ} {r r1 r0 : Req ρ σ F}
    (h1 : Req.setStream C S p r = (.ok (), r1)) (h0 : Req.new C S p = .ok r0) :
    r1 = (r0.withBody r.body_).over r1 ∧ r0.body_ = none ∧ r0.bodyParsed = false := by
  unfold Req.setStream Req.reInit at h1
  unfold Req.new Req.reInit at h0
  cases hq : queryDict C S none true with
  | error e => rw [hq] at h1; cases h1
  | ok q =>
    rw [hq] at h1 h0
    simp only [Except.ok.injEq, Prod.mk.injEq, true_and] at h1 h0
    rw [← h1, ← h0]
    exact ⟨rfl, rfl, rfl⟩

/-- **C43**, the header: after `request.stream = s`, whatever the request went through before,
`parse_request_header` has the outcome it has on a new request over `s`, and leaves the same method,
host, headers, `GET` and so on. -/
theorem C43_header (E : Env ρ σ F) (S : Settings) (p : ρ) (r r1 r0 : Req ρ σ F)
    (h1 : Req.setStream E.C S p r = (.ok (), r1)) (h0 : Req.new E.C S p = .ok r0) :
    (parseRequestHeader E S r1).1 = (parseRequestHeader E S r0).1 ∧
    (parseRequestHeader E S r1).2.1 = (parseRequestHeader E S r0).2.1 ∧
    SameHeader (parseRequestHeader E S r1).2.2 (parseRequestHeader E S r0).2.2 ∧
    (parseRequestHeader E S r1).2.2.stream = (parseRequestHeader E S r0).2.2.stream := by
  obtain ⟨e, _, _⟩ := setStream_over h1 h0
  obtain ⟨x1, f1, _⟩ := parseRequestHeader_over E S (r0.withBody r.body_) r1
  obtain ⟨b, f2⟩ := parseRequestHeader_overB E S r0 r.body_
  rw [e, f1, f2]
  exact ⟨rfl, rfl, ⟨rfl, rfl, rfl, rfl, rfl, rfl, rfl, rfl, rfl, rfl⟩, rfl⟩

/-- **C43**, all of `parse()`, for a request that holds no body text (`_body` was never set, or was
removed by `body_stream`, or by a charset): everything is as on a new request; `POST` and `FILES`
too, provided the new body is not empty (`bodyParsed`).  Missing: requests that hold a body, and
`POST`/`FILES` for an empty body; there the claim is false, see `C43_refuted`. -/
theorem C43_partial (E : Env ρ σ F) (S : Settings) (p : ρ) (r r1 r0 : Req ρ σ F) (w : σ)
    (hb : r.body_ = none)
    (h1 : Req.setStream E.C S p r = (.ok (), r1)) (h0 : Req.new E.C S p = .ok r0) :
    (parseRequest E S r1 w).1 = (parseRequest E S r0 w).1 ∧
    (parseRequest E S r1 w).2.1 = (parseRequest E S r0 w).2.1 ∧
    (parseRequest E S r1 w).2.2.2 = (parseRequest E S r0 w).2.2.2 ∧
    SameHeader (parseRequest E S r1 w).2.2.1 (parseRequest E S r0 w).2.2.1 ∧
    (parseRequest E S r1 w).2.2.1.stream = (parseRequest E S r0 w).2.2.1.stream ∧
    (parseRequest E S r1 w).2.2.1.bodyParsed = (parseRequest E S r0 w).2.2.1.bodyParsed ∧
    (parseRequest E S r1 w).2.2.1.body_ = (parseRequest E S r0 w).2.2.1.body_ ∧
    ((parseRequest E S r0 w).2.2.1.bodyParsed = true →
      (parseRequest E S r1 w).2.2.1.post = (parseRequest E S r0 w).2.2.1.post ∧
      (parseRequest E S r1 w).2.2.1.files = (parseRequest E S r0 w).2.2.1.files) := by
  obtain ⟨e, e0, hp⟩ := setStream_over h1 h0
  have e' : r0.withBody r.body_ = r0 := by rw [hb, ← e0]; rfl
  rw [e'] at e
  obtain ⟨x', f1, f2⟩ := parseRequest_over E S r0 r1 w hp
  rw [e, f1]
  refine ⟨rfl, rfl, rfl, ⟨rfl, rfl, rfl, rfl, rfl, rfl, rfl, rfl, rfl, rfl⟩, rfl, rfl, rfl, ?_⟩
  intro h
  rcases f2 with ⟨_, g1, g2⟩ | ⟨g, _⟩
  · exact ⟨g1, g2⟩
  · rw [h] at g; cases g

/-- Parse the first input, assign the second, parse again. -/
def twice (a b : Bytes) : Req Source Unit Unit :=
  let r := (parseRequest bareEnv {} (reqOf [a]) ()).2.2.1
  let r := (Req.setStream latin1 {} ⟨[b]⟩ r).2
  (parseRequest bareEnv {} r ()).2.2.1

/-- **C43** is false of the code: a stored body survives the assignment of a new stream, and so does
`POST` when the new body is empty. -/
theorem C43_refuted :
    (let t := b!"POST http://h/ HTTP/1.1\r\nContent-Type: text/plain\r\n\r\n"
     (twice (t ++ b!"a") (t ++ b!"bb")).body_ = some (.u (Py.toU b!"a")) ∧
     (parseRequest bareEnv {} (reqOf [t ++ b!"bb"]) ()).2.2.1.body_ = some (.u (Py.toU b!"bb"))) ∧
    (let t := b!"POST http://h/ HTTP/1.1\r\nContent-Type: application/x-www-form-urlencoded\r\n\r\n"
     (twice (t ++ b!"a=1") t).post =
        some (.query ⟨[(Py.toU b!"a", Py.toU b!"1")], false⟩) ∧
     (twice (t ++ b!"a=1") (t ++ b!"b=2")).post =
        some (.query ⟨[(Py.toU b!"a", Py.toU b!"1")], false⟩)) := by decide +kernel

/-! ### C44 -/

/-- **C44**.  After `request.body_stream = s`, `parse_request_body` has the same outcome and leaves the
same `POST`, `FILES`, body and flag on any two requests with the same header data, whatever bodies
they have parsed before. -/
theorem C44_body_stream (E : Env ρ σ F) (S S2 : Settings) (p : ρ) (a b a1 b1 : Req ρ σ F) (w : σ)
    (hab : SameHeader a b) (ha : Req.setBodyStream E.C S p a = (.ok (), a1))
    (hb : Req.setBodyStream E.C S p b = (.ok (), b1)) :
    (parseRequestBody E S2 a1 w).1 = (parseRequestBody E S2 b1 w).1 ∧
    (parseRequestBody E S2 a1 w).2.2 = (parseRequestBody E S2 b1 w).2.2 ∧
    (parseRequestBody E S2 a1 w).2.1.post = (parseRequestBody E S2 b1 w).2.1.post ∧
    (parseRequestBody E S2 a1 w).2.1.files = (parseRequestBody E S2 b1 w).2.1.files ∧
    (parseRequestBody E S2 a1 w).2.1.body_ = (parseRequestBody E S2 b1 w).2.1.body_ ∧
    (parseRequestBody E S2 a1 w).2.1.bodyParsed = (parseRequestBody E S2 b1 w).2.1.bodyParsed ∧
    SameHeader (parseRequestBody E S2 a1 w).2.1 (parseRequestBody E S2 b1 w).2.1 := by
  unfold Req.setBodyStream at ha hb
  simp only at ha hb
  cases hq : queryDict E.C S none true with
  | error e => rw [hq] at ha; cases ha
  | ok q =>
    rw [hq] at ha hb
    simp only [Prod.mk.injEq, true_and] at ha hb
    have hp : b1.bodyParsed = false := by rw [← hb]
    have e : a1 = b1.over a1 ∧ a1.post = b1.post ∧ a1.files = b1.files := by
      rw [← ha, ← hb]
      obtain ⟨g1, g2, g3, g4, g5, g6, g7, g8, g9, g10⟩ := hab
      refine ⟨?_, rfl, rfl⟩
      simp only [Req.over, g1, g2, g3, g4, g5, g6, g7, g8, g9, g10]
    obtain ⟨e1, e2, e3⟩ := e
    obtain ⟨x', f1, f2⟩ := parseRequestBody_over E S2 b1 a1 w hp
    rw [e1, f1]
    refine ⟨rfl, rfl, ?_, ?_, rfl, rfl, ⟨rfl, rfl, rfl, rfl, rfl, rfl, rfl, rfl, rfl, rfl⟩⟩
    · rcases f2 with ⟨_, g1, _⟩ | ⟨_, g1, _, g3, _⟩
      · exact g1
      · rw [g3, ← e2]; exact g1
    · rcases f2 with ⟨_, _, g1⟩ | ⟨_, _, g1, _, g3⟩
      · exact g1
      · rw [g3, ← e3]; exact g1

example : let t := b!"POST http://h/ HTTP/1.1\r\nContent-Type: application/x-www-form-urlencoded\r\n\r\n"
    let r := (parseRequest bareEnv {} (reqOf [t ++ b!"a=1"]) ()).2.2.1
    let r := (Req.setBodyStream latin1 {} ⟨[b!"b", b!"=2"]⟩ r).2
    (parseRequestBody bareEnv {} r ()).2.1.post =
      some (.query ⟨[(Py.toU b!"b", Py.toU b!"2")], false⟩) := by decide +kernel

/-! ### C45 -/

/-- Parsing changes nothing in the settings but the default charset. -/
theorem C45_only_charset (E : Env ρ σ F) (S : Settings) (r : Req ρ σ F) (w : σ) :
    SameButCharset S (parseRequest E S r w).2.1 := by
  have h := (parseRequestHeader_frame E S r).2.2.2.2
  unfold parseRequest
  generalize parseRequestHeader E S r = y at h
  obtain ⟨o, S', r'⟩ := y
  cases o <;> exact h

theorem applyHeader_settings {E : Env ρ σ F} {header : Bytes} {S : Settings} {r : Req ρ σ F}
    (hc : ∀ line hdrs vs ct params, parseRequestHeaders (header ++ b!"\r\n") = .ok (line, hdrs) →
      hdrs.get? b!"Content-Type" = some vs → parseHeader E.C (vs.getLast?.getD []) = .ok (ct, params) →
      params.get? b!"charset" = none) : (applyHeader E header S r).2.1 = S := by
  unfold applyHeader
  cases h1 : parseRequestHeaders (header ++ b!"\r\n") with
  | error e => rfl
  | ok lh =>
    obtain ⟨line, hdrs⟩ := lh
    simp only
    cases parseRequestLine E.up line with
    | error e => rfl
    | ok l =>
      simp only
      cases h3 : hostText l hdrs with
      | error e => rfl
      | ok hh =>
        obtain ⟨host, rest⟩ := hh
        simp only
        have hget : rest.get? b!"Content-Type" = hdrs.get? b!"Content-Type" := by
          unfold hostText at h3
          split at h3
          · cases h3; rfl
          · cases hg : hdrs.get? b!"Host" with
            | none => rw [hg] at h3; cases h3
            | some vs =>
              rw [hg] at h3
              simp only [Except.ok.injEq, Prod.mk.injEq] at h3
              rw [← h3.2]
              rw [Dict.get?_erase, if_neg (by decide)]
        have key : ∀ q : Req ρ σ F, (applyContentType E.C rest S q).2.1 = S := by
          intro q
          unfold applyContentType
          cases hg : rest.get? b!"Content-Type" with
          | none => rfl
          | some vs =>
            simp only
            cases hph : parseHeader E.C (vs.getLast?.getD []) with
            | error e => rfl
            | ok cp =>
              obtain ⟨ct, params⟩ := cp
              simp only
              rw [hc line hdrs vs ct params h1 (by rw [← hget, hg]) hph]
        generalize hq : ({ r with scheme := _, host := _, port := _, method := _, path := _,
                                  proto := _ } : Req ρ σ F) = q
        have k2 := key q
        generalize applyContentType E.C rest S q = y at k2
        obtain ⟨o, S2, r2⟩ := y
        cases o with
        | error e => exact k2
        | ok u =>
          simp only
          rw [(applyQuery_frame E.C l.query rest S2 r2).2]
          exact k2

/-- **C45**, for a request whose content type has no charset: parsing it leaves the shared settings as
they are, hence has no influence on any other request.  Missing: requests that declare a charset,
where the claim is false, see `C45_refuted`. -/
theorem C45_partial (L : Lawful ρ) (E : Env ρ σ F) (S : Settings) (hS : 1 ≤ S.maxHeaderSize)
    (r : Req ρ σ F) (hr : r.headerParsed = false) (p : ρ) (hp : r.stream = LazyStream.mk' p)
    (hI : L.Inv p) (w : σ)
    (hc : ∀ head body line hdrs vs ct params, FirstEnd (L.content p) head body →
      parseRequestHeaders (head ++ b!"\r\n") = .ok (line, hdrs) →
      hdrs.get? b!"Content-Type" = some vs → parseHeader E.C (vs.getLast?.getD []) = .ok (ct, params) →
      params.get? b!"charset" = none) :
    (parseRequest E S r w).2.1 = S := by
  have hsc : L.sc r.stream = L.content p := by rw [hp]; rfl
  have h : (parseRequestHeader E S r).2.1 = S := by
    rcases parseRequestHeader_spec (L := L) (k := 0) (by omega) E S hS r hr
        (by rw [hp]; exact SK.fresh L p hI) with ⟨i, s', a1, a2, _⟩ | ⟨_, s', a2, _⟩
    · rw [hsc] at a1 a2
      rw [a2]
      apply applyHeader_settings
      intro line hdrs vs ct params
      exact hc _ _ line hdrs vs ct params (firstEnd_iff.2 ⟨i, a1, rfl, rfl⟩)
    · rw [a2]
  unfold parseRequest
  generalize parseRequestHeader E S r = y at h
  obtain ⟨o, S', r'⟩ := y
  cases o <;> exact h

/-- A codec table with an error for an unknown name. -/
def twoCodecs : Codecs where
  decodeReplace n b := if n = b!"nope" then .error .lookupError else .ok (Py.toU b)
  decode n b := if n = b!"nope" then .error .lookupError
    else if n = b!"shift" then .ok ((Py.toU b).map (· + 1)) else .ok (Py.toU b)
  strEncode _ b := .ok b
  encode _ u := .ok (u.map UInt8.ofNat)

/-- **C45** is false of the code: the charset of one request decodes the bodies of all later requests
that share the settings, and an unknown charset makes parsing of every later form fail. -/
theorem C45_refuted :
    let E : Env Source Unit Unit := { bareEnv with C := twoCodecs }
    let first := fun cs : Bytes => reqOf [b!"POST http://h/ HTTP/1.1\r\nContent-Type: text/plain; charset=" ++
      cs ++ b!"\r\n\r\n"]
    let second := reqOf [b!"POST http://h/ HTTP/1.1\r\nContent-Type: text/plain\r\n\r\nabc"]
    (parseRequest E {} second ()).2.2.1.body_ = some (.u (Py.toU b!"abc")) ∧
    (parseRequest E (parseRequest E {} (first b!"shift") ()).2.1 second ()).2.2.1.body_ =
      some (.u (Py.toU b!"bcd")) ∧
    (parseRequest E {} second ()).1.toOption = some () ∧
    (parseRequest E (parseRequest E {} (first b!"nope") ()).2.1 second ()).1.toOption = none := by
  decide +kernel

/-! ### C46 -/

/-- **C46** is false of the code: `parse_request_body` always loads the handlers of the settings; which
handlers were assigned before makes no difference to anything. -/
theorem C46_refuted (E : Env ρ σ F) (S : Settings) (r : Req ρ σ F) (H0 H1 : Option (HandlerOps ρ σ F))
    (hp : r.bodyParsed = false) (w w1 : σ) (H : HandlerOps ρ σ F) (hl : E.load w = (.ok H, w1)) :
    parseRequestBody E S { r with handlers := H0 } w = parseRequestBody E S { r with handlers := H1 } w := by
  unfold parseRequestBody
  simp only [hp, Bool.false_eq_true, if_false, hl]

/-- The assignment itself is refused only after a body has been parsed. -/
theorem C46_assign (H : HandlerOps ρ σ F) (r : Req ρ σ F) :
    (r.files_ = none → Req.setHandlers H r = (.ok (), { r with handlers := some H })) ∧
    (r.files_ ≠ none → Req.setHandlers H r = (.error .attributeError, r)) := by
  unfold Req.setHandlers
  constructor <;> intro h
  · rw [h]; rfl
  · rw [if_pos (by simpa [Option.isSome_iff_ne_none] using h)]

/-! ### C47 -/

/-- **C47** is false of the code: whatever `MAX_HEADER_SIZE` is, an input without an empty line is read
and kept to its end, however long it is, before the parser gives up. -/
theorem C47_refuted (E : Env Source Unit Unit) (S : Settings) (hS : 1 ≤ S.maxHeaderSize) (n : Nat) :
    ∃ chunks : List Bytes, n < chunks.flatten.length ∧
      (∃ s', parseRequestHeader E S (reqOf chunks) = (.error .invalidHttpRequest, S,
        { reqOf chunks with stream := s', headerParsed := true }) ∧ Source.lawful.sc s' = []) := by
  refine ⟨[List.replicate (n + 1) 97], by simp, ?_⟩
  refine C34_unterminated Source.lawful E S hS (reqOf _) rfl _ rfl trivial ?_
  intro a b e
  have : (13 : UInt8) ∈ Source.lawful.content (⟨[List.replicate (n + 1) 97]⟩ : Source) := by
    rw [e]; simp
  simp [Source.lawful] at this

/-- **C47**, a long header is accepted: `MAX_HEADER_SIZE` is only the size of one read. -/
theorem C47_accepted (L : Lawful ρ) (E : Env ρ σ F) (S S2 : Settings) (hS : 1 ≤ S.maxHeaderSize)
    (hS2 : S2 = { S with maxHeaderSize := 1 }) (r : Req ρ σ F) (hr : r.headerParsed = false) (p : ρ)
    (hp : r.stream = LazyStream.mk' p) (hI : L.Inv p) (head body : Bytes)
    (h : FirstEnd (L.content p) head body) :
    ∃ s s2, parseRequestHeader E S r =
        applyHeader E head S { r with stream := s, headerParsed := true } ∧
      parseRequestHeader E S2 r =
        applyHeader E head S2 { r with stream := s2, headerParsed := true } := by
  obtain ⟨s, e, _⟩ := C34_split L E S hS r hr p hp hI head body h
  obtain ⟨s2, e2, _⟩ := C34_split L E S2 (by subst hS2; simp) r hr p hp hI head body h
  exact ⟨s, s2, e, e2⟩

example : (parseRequestHeader bareEnv { maxHeaderSize := 1 }
    (reqOf [b!"GET http://h/ HTTP/1.1\r\nA: bbbbbbbbbbbbbbb\r\n\r\n"])).1.toOption = some () := by
  decide +kernel

/-! ### C69: a body over the limit -/

/-- **C69** is false of the code: `body()` raises `RequestDataTooBig` for a body over the limit, and when
asked again returns the rest of it, after the first 64 KiB, as the whole body.  (For a body of at most
64 KiB that is the empty string.) -/
theorem C69_refuted (L : Lawful ρ) (k : Nat) (hk : k ≤ 39) (E : Env ρ σ F) (S : Settings) (l : Nat)
    (hl : S.dataMaxMemory = some (l : Int)) (hl' : l < 65536)
    (r : Req ρ σ F) (hs : SK L k r.stream) (hh : r.headerParsed = true)
    (hp : r.bodyParsed = false) (hb : r.body_ = none) (hbig : l < (L.sc r.stream).length)
    (hrest : (L.sc r.stream).length ≤ 65536 + l) :
    ∃ r1 r2, body E S r = (.error .requestDataTooBig, S, r1) ∧
      body E S r1 = (.ok (.b ((L.sc r.stream).drop 65536)), S, r2) := by
  obtain ⟨s1, e, hs1, c1, z1⟩ := hs.read hk 65536
  have e' : r.stream.read (some 65536) = (.ok ((L.sc r.stream).take 65536), s1) := e
  have hw : withinLimit S.dataMaxMemory ((L.sc r.stream).take 65536).length = false := by
    rw [hl, ← Bool.not_eq_true, withinLimit_iff]
    rintro ⟨l', h1, h2⟩
    cases h1
    simp at h2
    omega
  have e1 : body E S r = (.error .requestDataTooBig, S, { r with stream := s1 }) := by
    unfold body
    rw [if_pos (.inl hh)]
    unfold bodyCore
    rw [if_neg (by simp [hp]), if_neg (by simp [hp]), hb]
    unfold readBody
    rw [e']
    simp only
    unfold bodyLoop
    rw [if_neg (by rw [hw]; simp), if_pos hw]
    simp only [hb]
  refine ⟨{ r with stream := s1 }, ?_⟩
  obtain ⟨r2, e2⟩ := (C41_body_limit L k hk E S { r with stream := s1 } hs1 hh hp hb).1
    ⟨l, hl, by simp only [c1, List.length_drop]; omega⟩
  refine ⟨r2, e1, ?_⟩
  rw [e2]
  simp only [c1]

example : let S : Settings := { dataMaxMemory := some 3 }
    let r := { reqOf [b!"too long"] with headerParsed := true }
    (body bareEnv S r).1.toOption = none ∧
    (body bareEnv S (body bareEnv S r).2.2).1.toOption = some (.b []) := by decide +kernel

/-! ### C70: `body()` before `parse_request_body()` -/

/-- **C70** is false of the code: once `body()` has read the body, `parse_request_body` finds an empty
stream and leaves `POST` and `FILES` as they were, whatever the content type. -/
theorem C70_refuted (L : Lawful ρ) (k : Nat) (hk : k ≤ 39) (E : Env ρ σ F) (S : Settings)
    (r : Req ρ σ F) (v : PyStr) (w : σ) (hp : r.bodyParsed = false) (hr : BodyRead L k v r) :
    (parseRequestBody E S r w).2.1.post = r.post ∧ (parseRequestBody E S r w).2.1.files = r.files ∧
      (parseRequestBody E S r w).2.1.bodyParsed = false := by
  have hend : SK L k r.stream ∧ L.sc r.stream = [] := by
    rcases hr.ended with h1 | h1
    · rw [hp] at h1; cases h1
    · exact h1
  unfold parseRequestBody
  rw [if_neg (by rw [hp]; simp)]
  rcases E.load w with ⟨o, w1⟩
  cases o with
  | error e => exact ⟨rfl, rfl, hp⟩
  | ok H =>
    simp only
    rw [if_neg (by rw [hr.header]; simp)]
    unfold parseBodyStream
    simp only
    obtain ⟨s1, e, a1, a2, _⟩ := hend.1.read hk 1
    have e' : r.stream.read (some 1) = (.ok ((L.sc r.stream).take 1), s1) := e
    rw [e', hend.2]
    simp only [List.take_nil, if_true]
    split
    · exact ⟨rfl, rfl, hp⟩
    · exact ⟨rfl, rfl, hp⟩

example : let r := reqOf [b!"POST http://h/ HTTP/1.1\r\nContent-Type: application/x-www-form-urlencoded\r\n\r\na=1"]
    let b := body bareEnv {} r
    b.1.toOption = some (.b b!"a=1") ∧
    (parseRequestBody bareEnv b.2.1 b.2.2 ()).1.toOption = some () ∧
    (parseRequestBody bareEnv b.2.1 b.2.2 ()).2.1.post = none ∧
    (parseRequest bareEnv {} r ()).2.2.1.post =
      some (.query ⟨[(Py.toU b!"a", Py.toU b!"1")], false⟩) := by decide +kernel

end Verif
