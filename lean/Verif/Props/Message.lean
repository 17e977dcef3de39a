import Verif.Proofs.Message
import Verif.Props.Query
import Verif.Props.Utf8
import Verif.Props.Text
import Verif.Props.Form
/-!
# Whole requests (C76-C78)
-/

namespace Verif
open Spec

/-- What the theorems need of an encoding: it extends ASCII. -/
structure AsciiCodec (C : Codecs) (enc : Bytes) : Prop where
  replace : AsciiCompat C enc
  decode : ∀ b : Bytes, (∀ c ∈ b, c < 128) → C.decode enc b = .ok (Py.toU b)
  str : ∀ b : Bytes, (∀ c ∈ b, c < 128) → C.strEncode enc b = .ok b

section
variable {ρ σ F : Type} [Producer ρ]

/-! ### Streams that have ended -/

theorem readLoop_empty (L : Lawful ρ) : ∀ (fuel n : Nat) (acc : Bytes) (s : LazyStream ρ), L.Inv s.producer →
    L.sc s = [] → s.size < fuel → ∃ s', LazyStream.readLoop fuel n acc s = (.ok acc, s') ∧ L.Inv s'.producer ∧
      L.sc s' = [] ∧ s'.size ≤ s.size
  | 0, _, _, _, _, _, h => by omega
  | fuel + 1, n, acc, s, hI, h0, hf => by
    unfold LazyStream.readLoop
    by_cases hn : n = 0
    · exact ⟨s, by simp [hn], hI, h0, le_refl _⟩
    · rw [if_neg hn]
      rcases LazyStream.next_spec L s hI with ⟨s', e, a1, _, _, a4, _, _, _, _, _, a5⟩ |
        ⟨c, s', e, a1, a2, _, _, _, _, a5, _⟩
      · exact ⟨s', by rw [e], a1, a4, a5⟩
      · rw [h0] at a2
        obtain ⟨rfl, h0'⟩ := List.append_eq_nil_iff.1 a2.symm
        obtain ⟨s2, b1, b2, b3, b4⟩ := readLoop_empty L fuel n acc s' a1 h0' (by omega)
        exact ⟨s2, by rw [e]; simpa [LazyStream.unget] using b1, b2, b3, by omega⟩

theorem read_empty (L : Lawful ρ) (n : Nat) (s : LazyStream ρ) (hI : L.Inv s.producer) (h0 : L.sc s = []) :
    ∃ s', s.read (some n) = (.ok [], s') := by
  obtain ⟨s', e, _⟩ := readLoop_empty L (s.size + 1) n [] s hI h0 (by omega)
  refine ⟨s', ?_⟩
  simp only [LazyStream.read]
  rw [if_neg (by omega)]
  simpa using e

/-- Reading the body of a stream that has ended. -/
theorem readBody_empty (L : Lawful ρ) (S : Settings) (r : Req ρ σ F) (hI : L.Inv r.stream.producer)
    (h0 : L.sc r.stream = []) (hl : Allowed S.dataMaxMemory 0) :
    ∃ s', readBody S r = (.ok (.b []), { r with stream := s', body_ := some (.b []) }) := by
  obtain ⟨s', e⟩ := read_empty L 65536 r.stream hI h0
  have hw : withinLimit S.dataMaxMemory 0 = true := (withinLimit_iff _ _).2 hl
  refine ⟨s', ?_⟩
  unfold readBody
  have e' : r.stream.read (some 65536) = (.ok [], s') := e
  rw [e']
  simp [bodyLoop, hw]

/-! ### Query strings -/

theorem Spec.Written.ascii {C : Codecs} {enc : Bytes} {qs : List (UStr × UStr)} {s : Bytes} (h : Written C enc qs s) :
    ∀ c ∈ s, c < 128 := by
  obtain ⟨ts, h1, h2⟩ := h
  have ht : ∀ t ∈ ts, ∀ c ∈ t, c < 128 := by
    clear h2
    induction h1 with
    | nil => simp
    | skip _ ih =>
      intro t ht
      rcases List.mem_cons.1 ht with rfl | ht
      · simp
      · exact ih t ht
    | cons hk hv _ _ _ ih =>
      intro t ht
      rcases List.mem_cons.1 ht with rfl | ht
      · intro c hc
        rw [List.mem_append, List.mem_cons] at hc
        rcases hc with hc | rfl | hc
        · exact (hk.clean c hc).1
        · decide
        · exact (hv.clean c hc).1
      · exact ih t ht
  clear h1
  induction h2 with
  | nil => simp
  | one t => exact ht t (by simp)
  | cons t sep hs _ _ ih =>
    intro c hc
    rw [List.mem_append, List.mem_cons] at hc
    rcases hc with hc | rfl | hc
    · exact ht t (by simp) c hc
    · rcases hs with rfl | rfl <;> decide
    · exact ih (fun t h => ht t (by simp [h])) c hc

theorem queryDict_written {C : Codecs} {S : Settings} (hC : AsciiCodec C S.defaultCharset)
    {qs : List (UStr × UStr)} {s : Bytes} (h : Written C S.defaultCharset qs s)
    (hl : Admits S.maxFields (numPieces (Py.toU s))) (mt : Bool) :
    queryDict C S (some (.b s)) mt = .ok ⟨qs, mt⟩ := by
  have ha := h.ascii
  obtain ⟨ts, h1, h2⟩ := h
  unfold queryDict queryText
  simp only [hC.decode s ha]
  rw [limited_admits (le_max_right _ _) hl, C52_parse C _ hC.replace _ _ _ h1 h2]

theorem queryDict_none {C : Codecs} {S : Settings} (hC : AsciiCodec C S.defaultCharset)
    (hl : Admits S.maxFields 1) (mt : Bool) : queryDict C S none mt = .ok ⟨[], mt⟩ :=
  queryDict_written (s := []) hC ⟨[], .nil, .nil⟩ hl mt


theorem Admits.mono {limit : Option Int} {m n : Nat} (h : Admits limit n) (hm : m ≤ n) : Admits limit m := by
  intro l hl
  rcases h l hl with h | ⟨h1, h2⟩
  · exact .inl h
  · exact .inr ⟨h1, by omega⟩

theorem Admits.one {limit : Option Int} {s : UStr} (h : Admits limit (numPieces s)) : Admits limit 1 :=
  h.mono (by unfold numPieces; omega)

/-! ### The header -/

theorem dotRemoved_unique {d a b : Bytes} (ha : DotRemoved d a) (hb : DotRemoved d b) : a = b := by
  rcases ha with rfl | ⟨rfl, h1⟩
  · rcases hb with hb | ⟨_, h2⟩
    · exact List.append_cancel_right hb
    · exact absurd rfl (h2 _)
  · rcases hb with rfl | ⟨rfl, _⟩
    · exact absurd rfl (h1 _)
    · rfl

theorem hostForm_split {host d p dom : Bytes} (h : HostForm (Py.lower host) d p) (hd : DotRemoved d dom) :
    splitDomainPort host = (dom, p) := by
  have := (C37_partial host (by
    intro hl
    exact (visible_ne ((hostForm_chars h).1 _ (List.mem_of_getLast? hl)).1).2.2 rfl)).2 d p h
  exact Prod.ext (dotRemoved_unique this.1 hd) this.2

theorem charsetAfter_fields (S : Settings) (ps : List (Bytes × Bytes)) :
    (charsetAfter S ps).maxFields = S.maxFields ∧ (charsetAfter S ps).dataMaxMemory = S.dataMaxMemory ∧
    (charsetAfter S ps).fileMaxMemory = S.fileMaxMemory := by
  unfold charsetAfter; split <;> exact ⟨rfl, rfl, rfl⟩

/-- The header of a written request up to the query string, for any stream and any request object. -/
theorem head_applied (L : Lawful ρ) (E : Env ρ σ F) (S : Settings) (hS : 1 ≤ S.maxHeaderSize)
    (r : Req ρ σ F) (hr : r.headerParsed = false) (p : ρ)
    (hp : r.stream = LazyStream.mk' p) (hI : L.Inv p) (m : Message) (hm : m.Ok) (hc : L.content p = m.text)
    (host d port dom : Bytes) (hh : m.HostText host) (hf : HostForm (Py.lower host) d port)
    (hdom : DotRemoved d dom) (type : Option Bytes) (ps : List (Bytes × Bytes)) (hct : m.Content type ps) :
    ∃ s' hd' g po b, parseRequestHeader E S r = applyQuery E.C m.reqLine.query hd' (charsetAfter S ps) { r with
        stream := s', headerParsed := true
        scheme := some (if m.reqLine.scheme ≠ [] then Py.lower m.reqLine.scheme else b!"UNKNOWN")
        host := some dom, port := some (portOf m.reqLine.scheme port), method := some m.reqLine.method
        path := some m.reqLine.path, proto := some m.reqLine.proto
        contentType := some (type.map Py.lower), get := g, post_ := po, body_ := b } ∧
      SK L 2 s' ∧ L.sc s' = m.body ∧ ((r.body_ = none → b = none) ∧ (param ps b!"charset" = none → b = r.body_)) ∧
      (∀ k, hd'.get? k =
        if (k = b!"Host" ∧ m.scheme = []) ∨ k ∉ m.headers.map Prod.fst then none
        else some ((m.headers.filter (fun p => p.1 = k)).map Prod.snd)) := by
  have hav : m.scheme ≠ [] → ∀ c ∈ m.authority, Visible c := fun hs c hc => by
    rcases hh with ⟨_, rfl⟩ | ⟨h, _⟩
    · exact ((hostForm_chars hf).1 c hc).1
    · exact absurd h hs
  have hah : m.scheme ≠ [] → ∃ d p, HostForm (Py.lower m.authority) d p := fun hs => by
    rcases hh with ⟨_, rfl⟩ | ⟨h, _⟩
    · exact ⟨_, _, hf⟩
    · exact absurd h hs
  obtain ⟨head, he1, he2⟩ := m.first_end hm hav
  rw [← hc] at he1
  obtain ⟨i, h1, rfl, hbody⟩ := firstEnd_iff.1 he1
  have hsc : L.sc r.stream = L.content p := by rw [hp]; rfl
  rcases parseRequestHeader_spec (L := L) (k := 0) (by omega) E S hS r hr
      (by rw [hp]; exact SK.fresh L p hI) with ⟨j, s', a1, a2, a3, a4⟩ | ⟨a1, _⟩
  case inr => rw [hsc, h1] at a1; cases a1
  rw [hsc] at a1 a2 a4
  rw [h1] at a1
  cases a1
  rw [a2]
  obtain ⟨hd, p1, p2⟩ := m.parse_headers hm hav
  unfold applyHeader
  rw [he2, p1]
  simp only
  rw [m.parse_line E.up hm hah]
  simp only
  -- the host
  have hhost : ∃ hd', hostText m.reqLine hd = .ok (host, hd') ∧ ∀ k, hd'.get? k =
      if (k = b!"Host" ∧ m.scheme = []) ∨ k ∉ m.headers.map Prod.fst then none
      else some ((m.headers.filter (fun p => p.1 = k)).map Prod.snd) := by
    unfold hostText
    rcases hh with ⟨hs, rfl⟩ | ⟨hs, hv⟩
    · refine ⟨hd, ?_, fun k => ?_⟩
      · have : m.reqLine.domain = m.authority := by simp [Message.reqLine, hs]
        rw [this, if_pos (hostForm_chars hf).2.2]
      · rw [p2]
        by_cases hk : k ∈ m.headers.map Prod.fst
        · rw [if_pos hk, if_neg (by simp only [hs, and_false, false_or, not_not]; exact hk)]
        · rw [if_neg hk, if_pos (.inr hk)]
    · have : m.reqLine.domain = [] := by simp [Message.reqLine, hs]
      rw [this, if_neg (by simp)]
      unfold Message.header at hv
      rw [← Message.getLast_filter, ← p2] at hv
      cases hg : Dict.get? hd b!"Host" with
      | none => rw [hg] at hv; cases hv
      | some vs =>
        rw [hg] at hv
        simp only [Option.bind_some] at hv
        refine ⟨Dict.erase hd b!"Host", by simp only [hv, Option.getD_some], fun k => ?_⟩
        rw [Dict.get?_erase]
        by_cases hk : k = b!"Host"
        · subst hk
          rw [if_pos rfl, if_pos (.inl ⟨rfl, hs⟩)]
        · rw [if_neg (fun h => hk h.symm), p2]
          by_cases hk2 : k ∈ m.headers.map Prod.fst
          · rw [if_pos hk2, if_neg (by rintro (⟨h, _⟩ | h); exacts [hk h, h hk2])]
          · rw [if_neg hk2, if_pos (.inr hk2)]
  obtain ⟨hd', e1, e2⟩ := hhost
  rw [e1]
  simp only
  rw [hostForm_split hf hdom]
  have hlast : ∀ k, k ≠ b!"Host" → (hd'.get? k).bind List.getLast? = m.header k := by
    intro k hk
    rw [e2, Message.header, ← Message.getLast_filter]
    by_cases hk2 : k ∈ m.headers.map Prod.fst
    · rw [if_neg (by rintro (⟨h, _⟩ | h); exacts [hk h, h hk2]), if_pos hk2]
    · rw [if_pos (.inr hk2), if_neg hk2]
  -- the content type
  have hcont : ∀ q : Req ρ σ F, ∃ g po b, applyContentType E.C hd' S q = (.ok (), charsetAfter S ps,
      { q with contentType := some (type.map Py.lower), get := g, post_ := po, body_ := b }) ∧
      ((q.body_ = none → b = none) ∧ (param ps b!"charset" = none → b = q.body_)) := by
    intro q
    have hl := hlast b!"Content-Type" (by decide)
    unfold applyContentType
    cases type with
    | none =>
      obtain ⟨h1, rfl⟩ := hct
      rw [h1] at hl
      have hn : hd'.get? b!"Content-Type" = none := by
        rw [e2]
        unfold Message.header at h1
        rw [← Message.getLast_filter] at h1
        split
        · rfl
        · rename_i hx
          have hx2 : b!"Content-Type" ∈ m.headers.map Prod.fst := by
            by_contra hh; exact hx (.inr hh)
          rw [if_pos hx2, Option.bind_some] at h1
          rw [List.getLast?_eq_none_iff, List.map_eq_nil_iff, List.filter_eq_nil_iff] at h1
          obtain ⟨pp, hpp, hpe⟩ := List.mem_map.1 hx2
          exact absurd (by simpa using hpe) (h1 pp hpp)
      rw [hn]
      exact ⟨q.get, q.post_, q.body_, rfl, id, fun _ => rfl⟩
    | some t =>
      obtain ⟨ht, s, h1, h2⟩ := hct
      rw [h1] at hl
      cases hg : Dict.get? hd' b!"Content-Type" with
      | none => rw [hg] at hl; cases hl
      | some vs =>
        rw [hg] at hl
        simp only [Option.bind_some] at hl
        simp only [hl, Option.getD_some]
        obtain ⟨opts, o1, o2⟩ := parseHeader_media E.C (type := t)
          ⟨fun hm => (ht _ hm).2 (by decide), fun hm => (ht _ hm).2 (by decide),
            fun c hc => visible_ascii (ht c hc).1⟩ h2
        have hst : Py.strip t = t :=
          stripBy_id (fun c hc => visible_not_space (ht c (List.mem_of_head? hc)).1)
            (fun c hc => visible_not_space (ht c (List.mem_of_getLast? hc)).1)
        rw [o1, hst]
        simp only [o2, charsetAfter]
        cases hp : param ps b!"charset" with
        | none => exact ⟨q.get, q.post_, q.body_, rfl, id, fun _ => rfl⟩
        | some cs => exact ⟨none, none, none, rfl, fun _ => rfl, by simp⟩
  obtain ⟨g, po, b, f1, f2⟩ := hcont { r with
    stream := s', headerParsed := true, scheme := some (if m.reqLine.scheme ≠ [] then Py.lower m.reqLine.scheme else b!"UNKNOWN")
    host := some dom, port := some (portOf m.reqLine.scheme port), method := some m.reqLine.method,
    path := some m.reqLine.path, proto := some m.reqLine.proto }
  rw [f1]
  exact ⟨s', hd', g, po, b, rfl, a3, by rw [a4, hbody], f2, e2⟩

/-- The header of a written request, for any stream and any request object. -/
theorem head_read (L : Lawful ρ) (E : Env ρ σ F) (S : Settings) (hS : 1 ≤ S.maxHeaderSize)
    (r : Req ρ σ F) (hr : r.headerParsed = false) (hinfo : r.info = some {}) (p : ρ)
    (hp : r.stream = LazyStream.mk' p) (hI : L.Inv p) (m : Message) (hm : m.Ok) (hc : L.content p = m.text)
    (host d port dom : Bytes) (hh : m.HostText host) (hf : HostForm (Py.lower host) d port)
    (hdom : DotRemoved d dom) (type : Option Bytes) (ps : List (Bytes × Bytes)) (hct : m.Content type ps)
    (hC : AsciiCodec E.C (charsetAfter S ps).defaultCharset) (qs : List (UStr × UStr))
    (hq : Written E.C (charsetAfter S ps).defaultCharset qs m.query)
    (hl : Admits S.maxFields (numPieces (Py.toU m.query))) :
    ∃ r', parseRequestHeader E S r = (.ok (), charsetAfter S ps, r') ∧ HeadRead m dom port type qs r' ∧
      SK L 2 r'.stream ∧ L.sc r'.stream = m.body ∧ r'.headerParsed = true ∧ r'.bodyParsed = r.bodyParsed ∧
      (r.body_ = none → r'.body_ = none) ∧ (param ps b!"charset" = none → r'.body_ = r.body_) := by
  obtain ⟨s', hd', g, po, b, f1, a3, a4, f2, e2⟩ := head_applied L E S hS r hr p hp hI m hm hc host d port dom hh hf hdom
    type ps hct
  rw [f1]
  -- the query string
  unfold applyQuery
  simp only [hinfo]
  have hl' : Admits (charsetAfter S ps).maxFields (numPieces (Py.toU m.query)) := by
    rw [(charsetAfter_fields S ps).1]; exact hl
  have hquery : (if m.reqLine.query ≠ [] then queryDict E.C (charsetAfter S ps) (some (.b m.reqLine.query)) false
      else queryDict E.C (charsetAfter S ps) none true) = .ok ⟨qs, decide (m.query = [])⟩ := by
    show (if m.query ≠ [] then queryDict E.C (charsetAfter S ps) (some (.b m.query)) false
      else queryDict E.C (charsetAfter S ps) none true) = _
    by_cases h0 : m.query = []
    · rw [if_neg (by simp [h0])]
      have := queryDict_written hC hq hl' true
      rw [h0] at this
      simp only [h0, decide_true]
      exact this
    · rw [if_pos h0, queryDict_written hC hq hl' false]
      simp [h0]
  rw [hquery]
  refine ⟨_, rfl, ⟨rfl, ?_, rfl, ⟨_, rfl, ?_⟩, rfl, rfl, rfl, rfl, ⟨hd', rfl, e2⟩⟩, a3, ?_, rfl, rfl, f2⟩
  · show some (if Py.lower m.scheme ≠ [] then Py.lower (Py.lower m.scheme) else b!"UNKNOWN") = _
    by_cases hs : m.scheme = []
    · simp [hs, Py.lower]
    · have : Py.lower m.scheme ≠ [] := by simpa [Py.lower] using hs
      rw [if_pos this, if_neg hs, lower_lower]
  · have := portOf_is (Py.lower m.scheme) port
    unfold PortIs at this ⊢
    rw [lower_lower] at this
    exact this
  · exact a4


/-- Bundles the request, its parts and the stream that delivers it. -/
structure Spec.Arrives (L : Lawful ρ) (C : Codecs) (S : Settings) (p : ρ) (m : Message) (host port : Bytes)
    (type : Option Bytes) (ps : List (Bytes × Bytes)) (qs : List (UStr × UStr)) : Prop where
  size : 1 ≤ S.maxHeaderSize
  inv : L.Inv p
  ok : m.Ok
  /-- the chunks of the stream, put together, are the text of the request -/
  text : L.content p = m.text
  /-- the host: a host name or an address in brackets, and a port number or nothing -/
  host : ∃ t d, m.HostText t ∧ HostForm (Py.lower t) d port ∧ DotRemoved d host
  content : m.Content type ps
  codec0 : AsciiCodec C S.defaultCharset
  codec : AsciiCodec C (charsetAfter S ps).defaultCharset
  query : Written C (charsetAfter S ps).defaultCharset qs m.query
  limit : Admits S.maxFields (numPieces (Py.toU m.query))

/-- The object made by `HttpRequest(stream, settings)`. -/
def freshReq (p : ρ) : Req ρ σ F where
  stream := LazyStream.mk' p
  post := some (.query ⟨[], true⟩)
  files := some []
  get := some ⟨[], true⟩
  info := some {}
  contentType := some none

theorem header_new {L : Lawful ρ} {E : Env ρ σ F} {S : Settings} {p : ρ} {m : Message} {host port : Bytes}
    {type : Option Bytes} {ps : List (Bytes × Bytes)} {qs : List (UStr × UStr)}
    (h : Arrives L E.C S p m host port type ps qs) :
    ∃ r0 r' : Req ρ σ F, Req.new E.C S p = .ok r0 ∧
      parseRequestHeader E S r0 = (.ok (), charsetAfter S ps, r') ∧ HeadRead m host port type qs r' ∧
      SK L 2 r'.stream ∧ L.sc r'.stream = m.body ∧ r'.headerParsed = true ∧ r'.bodyParsed = false ∧
      r'.body_ = none ∧ r'.post = some (.query ⟨[], true⟩) ∧ r'.files = some [] := by
  obtain ⟨t, d, h1, h2, h3⟩ := h.host
  have hq := queryDict_none h.codec0 h.limit.one true
  have hn : Req.new (σ := σ) (F := F) E.C S p = .ok (freshReq p) := by
    unfold Req.new Req.reInit
    simp only [hq]
    rfl
  obtain ⟨r', a1, a2, a3, a4, a5, a6, a7, _⟩ := head_read L E S h.size (freshReq p) rfl rfl p rfl h.inv m h.ok h.text t d port host
    h1 h2 h3 type ps h.content h.codec qs h.query h.limit
  refine ⟨_, r', hn, a1, a2, a3, a4, a5, a6, a7 rfl, ?_, ?_⟩
  · have := (parseRequestHeader_frame E S (freshReq p)).2.1
    rw [a1] at this
    exact this
  · have := (parseRequestHeader_frame E S (freshReq p)).2.2.1
    rw [a1] at this
    exact this

/-- **C76.**  The header of every well-formed request is read as it was written: request line, host,
port, query parameters, content type and header fields, however the text is cut into chunks. -/
theorem C76_header {L : Lawful ρ} {E : Env ρ σ F} {S : Settings} {p : ρ} {m : Message} {host port : Bytes}
    {type : Option Bytes} {ps : List (Bytes × Bytes)} {qs : List (UStr × UStr)}
    (h : Arrives L E.C S p m host port type ps qs) :
    ∃ r0 r' : Req ρ σ F, Req.new E.C S p = .ok r0 ∧
      parseRequestHeader E S r0 = (.ok (), charsetAfter S ps, r') ∧ HeadRead m host port type qs r' := by
  obtain ⟨r0, r', h1, h2, h3, _⟩ := header_new (σ := σ) (F := F) h
  exact ⟨r0, r', h1, h2, h3⟩

/-! ### The body -/

theorem parseRequest_body {E : Env ρ σ F} {S S' : Settings} {r0 r : Req ρ σ F} {w w1 : σ} {H : HandlerOps ρ σ F}
    (h : parseRequestHeader E S r0 = (.ok (), S', r)) (hh : r.headerParsed = true) (hb : r.bodyParsed = false)
    (hl : E.load w = (.ok H, w1)) :
    parseRequest E S r0 w = (let y := parseBodyStream E S' H { r with handlers := some H } w1
      (y.1, S', y.2.1, y.2.2)) := by
  unfold parseRequest
  rw [h]
  simp only
  unfold parseRequestBody
  rw [if_neg (by rw [hb]; simp), hl]
  simp only [hh]
  rfl

/-- A body that is not empty: the byte read ahead is put back. -/
theorem parseBodyStream_full {L : Lawful ρ} {E : Env ρ σ F} {S : Settings} {r : Req ρ σ F} {w : σ}
    {H : HandlerOps ρ σ F} {k : Nat} (hk : k ≤ 38) (hs : SK L k r.stream) (hn : L.sc r.stream ≠ []) :
    ∃ s, SK L (k + 2) s ∧ L.sc s = L.sc r.stream ∧
      parseBodyStream E S H r w = (match parseByType E S H { r with stream := s } w with
        | (.error e, r, w) => (.error e, r, w)
        | (.ok (), r, w) =>
          match finishBody E.C S r with
          | (x, r) => (x, r, w)) := by
  obtain ⟨s1, e1, b1, b2, _⟩ := hs.read (by omega) 1
  obtain ⟨s2, e2, d1, d2⟩ := b1.unget hk ((L.sc r.stream).take 1)
  refine ⟨s2, d1, by rw [d2, b2, List.take_append_drop], ?_⟩
  unfold parseBodyStream
  have e1' : r.stream.read (some 1) = (.ok ((L.sc r.stream).take 1), s1) := e1
  rw [e1']
  simp only
  rw [if_neg (by simpa using hn), e2]
  rfl

theorem bodyCore_fresh {S : Settings} {r : Req ρ σ F} (h1 : r.bodyParsed = false) (h2 : r.body_ = none) :
    bodyCore S r = readBody S r := by
  unfold bodyCore
  rw [if_neg (by simp [h1]), if_neg (by simp [h1]), h2]

theorem bodyCore_held {S : Settings} {r : Req ρ σ F} {v : PyStr} (h1 : r.bodyParsed = false) (h2 : r.body_ = some v) :
    bodyCore S r = (.ok v, r) := by
  unfold bodyCore
  rw [if_neg (by simp [h1]), if_neg (by simp [h1]), h2]

theorem finishBody_fresh {C : Codecs} {S : Settings} {r r1 : Req ρ σ F} {t : Bytes} (h1 : r.bodyParsed = false)
    (h2 : r.body_ = none) (h3 : readBody S r = (.ok (.b t), r1)) :
    (∀ u, C.decode S.defaultCharset t = .ok u → finishBody C S r = (.ok (),
      { r1 with body_ := some (.u u), bodyParsed := true, post := r1.post_, files := r1.files_ })) ∧
    (∀ e, C.decode S.defaultCharset t = .error e → finishBody C S r = (.error e, r1)) := by
  unfold finishBody
  rw [bodyCore_fresh h1 h2, h3]
  simp only [decodeBody]
  exact ⟨fun u hu => by rw [hu], fun e he => by rw [he]⟩

/-- **C77**, without a body: `POST` and `FILES` are empty. -/
theorem C77_empty {L : Lawful ρ} {E : Env ρ σ F} {S : Settings} {p : ρ} {m : Message} {host port : Bytes}
    {type : Option Bytes} {ps : List (Bytes × Bytes)} {qs : List (UStr × UStr)}
    (h : Arrives L E.C S p m host port type ps qs) (hb : m.body = [])
    {w w1 : σ} {H : HandlerOps ρ σ F} (hl : E.load w = (.ok H, w1)) :
    ∃ r0 r' : Req ρ σ F, Req.new E.C S p = .ok r0 ∧
      parseRequest E S r0 w = (.ok (), charsetAfter S ps, r', w1) ∧ HeadRead m host port type qs r' ∧
      r'.post = some (.query ⟨[], true⟩) ∧ r'.files = some [] := by
  obtain ⟨r0, r, h1, h2, h3, h4, h5, h6, h7, h8, h9, h10⟩ := header_new (σ := σ) (F := F) h
  rw [hb] at h5
  obtain ⟨s1, e1, b1, b2, _⟩ := h4.read (by omega) 1
  have e1' : r.stream.read (some 1) = (.ok ((L.sc r.stream).take 1), s1) := e1
  refine ⟨r0, { r with handlers := some H, stream := s1, post_ := some (.query ⟨[], false⟩), files_ := some [] },
    h1, ?_, ?_, h9, h10⟩
  · rw [parseRequest_body h2 h6 h7 hl]
    unfold parseBodyStream
    rw [e1', h5]
    simp only [List.take_nil, ↓reduceIte]
    have hq := queryDict_none h.codec (by rw [(charsetAfter_fields S ps).1]; exact h.limit.one) false
    rw [hq]
  · exact ⟨h3.1, h3.2, h3.3, h3.4, h3.5, h3.6, h3.7, h3.8, h3.9⟩

/-- **C77**, an urlencoded form: `POST` has the pairs of the body in their order, `FILES` is empty. -/
theorem C77_form {L : Lawful ρ} {E : Env ρ σ F} {S : Settings} {p : ρ} {m : Message} {host port t : Bytes}
    {ps : List (Bytes × Bytes)} {qs form : List (UStr × UStr)}
    (h : Arrives L E.C S p m host port (some t) ps qs)
    (ht : Py.lower t = b!"application/x-www-form-urlencoded") (hb : m.body ≠ [])
    (hf : Written E.C (charsetAfter S ps).defaultCharset form m.body)
    (hm : Allowed S.dataMaxMemory m.body.length) (hn : Admits S.maxFields (numPieces (Py.toU m.body)))
    {w w1 : σ} {H : HandlerOps ρ σ F} (hl : E.load w = (.ok H, w1)) :
    ∃ r0 r' : Req ρ σ F, Req.new E.C S p = .ok r0 ∧
      parseRequest E S r0 w = (.ok (), charsetAfter S ps, r', w1) ∧
      HeadRead m host port (some t) qs r' ∧ r'.bodyParsed = true ∧
      r'.post = some (.query ⟨form, false⟩) ∧ r'.files = some [] := by
  obtain ⟨r0, r, h1, h2, h3, h4, h5, h6, h7, h8, h9, h10⟩ := header_new (σ := σ) (F := F) h
  obtain ⟨s, a1, a2, a3⟩ := parseBodyStream_full (E := E) (S := charsetAfter S ps) (w := w1) (H := H)
    (r := { r with handlers := some H }) (k := 2) (by omega) h4 (by rw [h5]; exact hb)
  have a2 : L.sc s = m.body := a2.trans h5
  have hw : withinLimit (charsetAfter S ps).dataMaxMemory (L.sc s).length = true := by
    rw [(charsetAfter_fields S ps).2.1, a2]; exact (withinLimit_iff _ _).2 hm
  obtain ⟨s2, _, _, hr⟩ := readBody_spec (k := 4) (by omega) (charsetAfter S ps)
    { r with handlers := some H, stream := s } a1
  rcases hr with ⟨_, _, hr⟩ | ⟨hr, _⟩
  case inr => rw [hw] at hr; cases hr
  have ht' : r.contentType = some (some b!"application/x-www-form-urlencoded") := by rw [h3.contentType, ← ht]; rfl
  have hq := queryDict_written h.codec hf (by rw [(charsetAfter_fields S ps).1]; exact hn) false
  refine ⟨r0, { r with
      handlers := some H, stream := s2, post_ := some (.query ⟨form, false⟩), files_ := some []
      post := some (.query ⟨form, false⟩), files := some [], body_ := some (.u (Py.toU m.body)), bodyParsed := true },
    h1, ?_, ?_, rfl, rfl, rfl⟩
  · have hby : parseByType E (charsetAfter S ps) H { r with handlers := some H, stream := s } w1 = (.ok (), { r with
        handlers := some H, stream := s2, body_ := some (.b m.body), post_ := some (.query ⟨form, false⟩)
        files_ := some [] }, w1) := by
      unfold parseByType
      simp only [ht', Option.some.injEq]
      rw [if_neg (by decide), if_pos trivial, ← ht', bodyCore_fresh (r := { r with handlers := some H, stream := s }) h7 h8,
        hr, a2]
      simp only [hq]
    rw [parseRequest_body h2 h6 h7 hl, a3, hby]
    simp only
    unfold finishBody
    rw [bodyCore_held (v := .b m.body) (by exact h7) (by exact rfl)]
    simp only [decodeBody, h.codec.decode _ hf.ascii]
  · exact ⟨h3.1, h3.2, h3.3, h3.4, h3.5, h3.6, h3.7, h3.8, h3.9⟩

/-- **C77**, any other content type (or none): `POST` and `FILES` are empty and the body is the text;
a body that is not text in the charset makes `parse()` fail with the error of the codec. -/
theorem C77_other {L : Lawful ρ} {E : Env ρ σ F} {S : Settings} {p : ρ} {m : Message} {host port : Bytes}
    {type : Option Bytes} {ps : List (Bytes × Bytes)} {qs : List (UStr × UStr)}
    (h : Arrives L E.C S p m host port type ps qs)
    (ht : type.map Py.lower ≠ some b!"application/x-www-form-urlencoded" ∧
      type.map Py.lower ≠ some b!"multipart/form-data") (hb : m.body ≠ [])
    (hm : Allowed S.dataMaxMemory m.body.length)
    {w w1 : σ} {H : HandlerOps ρ σ F} (hl : E.load w = (.ok H, w1)) :
    ∃ r0 r' : Req ρ σ F, Req.new E.C S p = .ok r0 ∧ HeadRead m host port type qs r' ∧
      (∀ u, E.C.decode (charsetAfter S ps).defaultCharset m.body = .ok u →
        parseRequest E S r0 w = (.ok (), charsetAfter S ps, r', w1) ∧ r'.bodyParsed = true ∧
        r'.post = some (.query ⟨[], false⟩) ∧ r'.files = some [] ∧
        ∀ S2, ∃ r2, body E S2 r' = (.ok (.u u), S2, r2)) ∧
      (∀ e, E.C.decode (charsetAfter S ps).defaultCharset m.body = .error e →
        parseRequest E S r0 w = (.error e, charsetAfter S ps, r', w1) ∧ r'.bodyParsed = false) := by
  obtain ⟨r0, r, h1, h2, h3, h4, h5, h6, h7, h8, h9, h10⟩ := header_new (σ := σ) (F := F) h
  obtain ⟨s, a1, a2, a3⟩ := parseBodyStream_full (E := E) (S := charsetAfter S ps) (w := w1) (H := H)
    (r := { r with handlers := some H }) (k := 2) (by omega) h4 (by rw [h5]; exact hb)
  have a2 : L.sc s = m.body := a2.trans h5
  have hw : withinLimit (charsetAfter S ps).dataMaxMemory (L.sc s).length = true := by
    rw [(charsetAfter_fields S ps).2.1, a2]; exact (withinLimit_iff _ _).2 hm
  have hby : parseByType E (charsetAfter S ps) H { r with handlers := some H, stream := s } w1 = (.ok (), { r with
      handlers := some H, stream := s, post_ := some (.query ⟨[], false⟩), files_ := some [] }, w1) := by
    unfold parseByType
    simp only [h3.contentType]
    rw [if_neg ht.2, if_neg ht.1,
      queryDict_none h.codec (by rw [(charsetAfter_fields S ps).1]; exact h.limit.one) false]
  obtain ⟨s2, _, _, hr⟩ := readBody_spec (k := 4) (by omega) (charsetAfter S ps)
    { r with handlers := some H, stream := s, post_ := some (.query ⟨[], false⟩), files_ := some [] } a1
  rcases hr with ⟨_, _, hr⟩ | ⟨hr, _⟩
  case inr => rw [hw] at hr; cases hr
  obtain ⟨f1, f2⟩ := finishBody_fresh (C := E.C) (by exact h7) (by exact h8) hr
  have hpr := parseRequest_body h2 h6 h7 hl
  rw [a3, hby] at hpr
  simp only [a2] at f1 f2 hpr
  cases hd : E.C.decode (charsetAfter S ps).defaultCharset m.body with
  | error e =>
    rw [f2 e hd] at hpr
    exact ⟨r0, { r with
      handlers := some H, stream := s2, post_ := some (.query ⟨[], false⟩), files_ := some []
      body_ := some (.b m.body) }, h1, ⟨h3.1, h3.2, h3.3, h3.4, h3.5, h3.6, h3.7, h3.8, h3.9⟩, by simp,
      fun e' he => by cases he; exact ⟨hpr, h7⟩⟩
  | ok u =>
    rw [f1 u hd] at hpr
    refine ⟨r0, { r with
      handlers := some H, stream := s2, post_ := some (.query ⟨[], false⟩), files_ := some []
      post := some (.query ⟨[], false⟩), files := some []
      body_ := some (.u u), bodyParsed := true }, h1, ⟨h3.1, h3.2, h3.3, h3.4, h3.5, h3.6, h3.7, h3.8, h3.9⟩, fun u' he => ?_, by simp⟩
    cases he
    refine ⟨hpr, rfl, rfl, rfl, fun S2 => ?_⟩
    unfold body
    rw [if_pos (.inl h6)]
    unfold bodyCore
    have hf : isFormType ((some (type.map Py.lower)).getD none) = false := by
      simpa [isFormType] using ht
    simp only [h3.contentType, hf]
    exact ⟨_, rfl⟩

/-! ### Multipart forms -/

theorem lastValue_mem {ps : List (Bytes × Bytes)} {n v : Bytes} (h : lastValue ps n = some v) : (n, v) ∈ ps := by
  unfold lastValue at h
  obtain ⟨q, h1, rfl⟩ := Option.map_eq_some_iff.1 h
  have h2 := List.find?_some h1
  have h3 := List.mem_of_find?_eq_some h1
  simp only [decide_eq_true_eq] at h2
  rw [← h2]
  exact List.mem_reverse.1 h3

theorem parseInt_digits {s : Bytes} {n : Nat} (h : Numeral 10 DecDigit s n) : Py.parseInt s = some (n : Int) := by
  have h1 := (parseDecInt_iff s n).2 h
  unfold parseDecInt at h1
  split at h1
  case isFalse => cases h1
  rename_i hs
  simp only [Option.some.injEq] at h1
  have hd : ∀ c ∈ s, Py.isDigit c = true := by
    have := hs.2
    simpa [List.all_eq_true] using this
  have hdig : ∀ c : UInt8, Py.isDigit c = true → Py.isSpace c = false ∧ c ≠ 45 ∧ c ≠ 43 := by
    intro c hc
    have := forall_u8 (fun c => !Py.isDigit c || (!Py.isSpace c && decide (c ≠ 45) && decide (c ≠ 43))) (by decide +kernel) c
    simp only [hc, Bool.not_true, Bool.false_or, Bool.and_eq_true, Bool.not_eq_true', decide_eq_true_eq] at this
    exact ⟨this.1.1, this.1.2, this.2⟩
  have hst : Py.strip s = s :=
    stripBy_id (fun c hc => (hdig c (hd c (List.mem_of_head? hc))).1)
      (fun c hc => (hdig c (hd c (List.mem_of_getLast? hc))).1)
  unfold Py.parseInt
  rw [hst]
  cases s with
  | nil => exact absurd rfl hs.1
  | cons c s =>
    have hc := hdig c (hd c (by simp))
    simp only
    split
    · rename_i e; cases e; exact absurd rfl hc.2.1
    · rename_i e; cases e; exact absurd rfl hc.2.2
    · rw [if_pos ⟨by simp, by simpa [List.all_eq_true] using hd⟩, ← h1]
      rfl

end

section
variable {ρ : Type} [Producer ρ]

/-- Reading the header does not touch `_files`. -/
theorem parseRequestHeader_files_ {σ F : Type} (E : Env ρ σ F) (S : Settings) (r : Req ρ σ F) :
    (parseRequestHeader E S r).2.2.files_ = r.files_ := by
  have ct : ∀ (h : MVD Bytes) (S : Settings) (r : Req ρ σ F), (applyContentType E.C h S r).2.2.files_ = r.files_ := by
    intro h S r
    unfold applyContentType
    split
    · rfl
    · split
      · rfl
      · simp only
        split <;> rfl
  have aq : ∀ (q : Bytes) (h : MVD Bytes) (S : Settings) (r : Req ρ σ F),
      (applyQuery E.C q h S r).2.2.files_ = r.files_ := by
    intro q h S r
    unfold applyQuery
    split
    · rfl
    · simp only
      generalize (if q ≠ [] then queryDict E.C S (some (.b q)) false else queryDict E.C S none true) = z
      cases z <;> rfl
  unfold parseRequestHeader
  split
  · rfl
  · split
    · rfl
    · split
      · rfl
      · unfold applyHeader
        split
        · rfl
        · split
          · rfl
          · split
            · rfl
            · simp only
              split
              · rename_i heq
                exact (congrArg (·.2.2.files_) heq).symm.trans (ct _ _ _)
              · rename_i heq
                exact (aq _ _ _ _).trans ((congrArg (·.2.2.files_) heq).symm.trans (ct _ _ _))

theorem new_files_ {ρ σ F : Type} {C : Codecs} {S : Settings} {p : ρ} {r : Req ρ σ F} (h : Req.new C S p = .ok r) : r.files_ = none := by
  unfold Req.new Req.reInit at h
  rcases hq : queryDict C S none true with e | q
  · rw [hq] at h; cases h
  · rw [hq] at h; cases h; rfl
/-- A request with a multipart body: what the parser returns becomes `POST` and `FILES`, what it raises is raised and
`POST` and `FILES` stay empty. -/
theorem multipart_arrives {σ F : Type} {L : Lawful ρ} {E : Env ρ σ F} {S : Settings} {p : ρ} {m : Message}
    {host port type : Bytes} {ps : List (Bytes × Bytes)} {qs : List (UStr × UStr)}
    (h : Arrives L E.C S p m host port (some type) ps qs)
    (hty : b!"multipart/" <+: type) (hlo : Py.lower type = b!"multipart/form-data")
    {b cl : Bytes} {n : Nat} (hb : param ps b!"boundary" = some b) (hbo : BoundaryOk (Py.toU b))
    (hcl : m.header b!"Content-Length" = some cl) (hn : Numeral 10 DecDigit cl n) (hne : m.body ≠ [])
    (hmem : Allowed S.dataMaxMemory 0) {w w1 : σ} {H : HandlerOps ρ σ F} (hl : E.load w = (.ok H, w1)) (hc : H.count ≠ 0) :
    ∃ (r0 : Req ρ σ F) (s : LazyStream ρ), Req.new E.C S p = .ok r0 ∧ SOK L s ∧ L.sc s = m.body ∧ 1 ≤ chunkSizeOf H ∧
      emptyQueryDict E.C (charsetAfter S ps) = .ok () ∧
      (∀ post files s' w', (⟨b, chunkSizeOf H, n⟩ : MultiPart).parse E.C (charsetAfter S ps) H E.fuel64 s w1 =
          (.ok (post, files), s', w') → L.Inv s'.producer → L.sc s' = [] →
        ∃ r', parseRequest E S r0 w = (.ok (), charsetAfter S ps, r', w') ∧ HeadRead m host port (some type) qs r' ∧
          r'.bodyParsed = true ∧ r'.post = some (.form post) ∧ r'.files = some files) ∧
      ∀ e s' w', (⟨b, chunkSizeOf H, n⟩ : MultiPart).parse E.C (charsetAfter S ps) H E.fuel64 s w1 = (.error e, s', w') →
        ∃ r', parseRequest E S r0 w = (.error e, charsetAfter S ps, r', w') ∧ HeadRead m host port (some type) qs r' ∧
          r'.bodyParsed = false ∧ r'.post = some (.query ⟨[], true⟩) ∧ r'.files = some [] ∧
          (r'.files_ = none ∨ r'.files_ = some []) := by
  have hS := charsetAfter_fields S ps
  generalize hS' : charsetAfter S ps = S' at *
  obtain ⟨r0, r, h1, h2, h3, h4, h5, h6, h7, h8, h9, h10⟩ := header_new (σ := σ) (F := F) h
  rw [hS'] at h2
  have hfn : r.files_ = none := by
    have := parseRequestHeader_files_ E S r0
    rw [h2, new_files_ h1] at this
    exact this
  have hcodec := h.codec
  rw [hS'] at hcodec
  obtain ⟨s, a1, a2, a3⟩ := parseBodyStream_full (E := E) (S := S') (w := w1) (H := H)
    (r := { r with handlers := some H }) (k := 2) (by omega) h4 (by rw [h5]; exact hne)
  have a2 : L.sc s = m.body := a2.trans h5
  -- the headers
  obtain ⟨hd, hi1, hi2⟩ := h3.info
  have hlast : ∀ k, k ≠ b!"Host" → (hd.get? k).bind List.getLast? = m.header k := by
    intro k hk
    rw [hi2, Message.header, ← Message.getLast_filter]
    by_cases hk2 : k ∈ m.headers.map Prod.fst
    · rw [if_neg (by rintro (⟨h, _⟩ | h); exacts [hk h, h hk2]), if_pos hk2]
    · rw [if_pos (.inr hk2), if_neg hk2]
  obtain ⟨htv, ct, hct, hmt⟩ := h.content
  obtain ⟨opts, o1, o2⟩ := parseHeader_media E.C (type := type)
    ⟨fun hm => (htv _ hm).2 (by decide), fun hm => (htv _ hm).2 (by decide), fun c hc => visible_ascii (htv c hc).1⟩ hmt
  have hct' := hlast b!"Content-Type" (by decide)
  have hcl' := hlast b!"Content-Length" (by decide)
  rw [hct] at hct'
  rw [hcl] at hcl'
  have hbp : Py.toU b ≠ [] := by
    obtain ⟨t, c, hh, _⟩ := hbo
    rcases hh with hh | hh <;> rw [hh] <;> simp
  -- the parser
  have hcreate : MultiPart.create E.C H (some ct) (some cl) =
      .ok ⟨b, chunkSizeOf H, n⟩ := by
    rw [create_ok_iff]
    refine ⟨_, opts, .b b, ?_, ?_, o1, by rw [o2, hb]; rfl, hbp, (validBoundary_iff _).2 hbo, ?_, ?_⟩
    · have : ∀ {ps s}, MediaText type ps s → b!"multipart/" <+: s := by
        intro ps s hmt
        induction hmt with
        | nil => exact hty
        | snoc _ _ _ _ ih => rw [List.append_assoc]; exact ih.trans (List.prefix_append _ _)
      exact List.isPrefixOf_iff_prefix.2 (this hmt)
    · have hmem : (b!"Content-Type", ct) ∈ m.headers := lastValue_mem hct
      simp only [Option.getD_some, Py.isAscii, List.all_eq_true, decide_eq_true_eq]
      intro c hc
      rcases (h.ok.values _ hmem).1 c hc with hv | rfl | rfl
      · exact visible_ascii hv
      · decide
      · decide
    · simp [lengthOf, parseInt_digits hn]
    · simp [lengthOf, parseInt_digits hn, PyStr.points, toU_ofNat]
  have hq : emptyQueryDict E.C S' = .ok () := by
    unfold emptyQueryDict
    rw [hcodec.decode [] (by simp), if_neg]
    rw [hS.1]
    cases hmf : S.maxFields with
    | none => simp
    | some l =>
      have := h.limit.one l hmf
      simp
      omega
  have hchunk : 1 ≤ chunkSizeOf H := (C33_chunk_size _ _ _ _ _ hcreate).2.1
  have htext : unicodeBoundary E.C (some ct) = false := by
    unfold unicodeBoundary
    simp only [Option.getD_some, o1, o2, hb]
    rfl
  have hpr := parseRequest_body h2 h6 h7 hl
  rw [a3] at hpr
  have hqd := queryDict_none hcodec (by rw [hS.1]; exact h.limit.one) false
  refine ⟨r0, s, h1, a1.toSOK (by omega), a2, hchunk, hq, fun post files s' w' p1 p3 p4 => ?_, fun e s' w' p1 => ?_⟩
  · have hby : parseByType E S' H { r with handlers := some H, stream := s } w1 = (.ok (), { r with
          handlers := some H, stream := s', post_ := some (.form post)
          files_ := some files }, w') := by
      unfold parseByType
      simp only [h3.contentType, Option.map_some, hlo]
      rw [if_pos trivial]
      unfold parseFileUpload
      simp only [hi1, Option.bind_some]
      rw [if_neg hc]
      simp only [hct', hcl', hcreate, htext, MultiPart.run, Bool.false_eq_true, if_false, p1]
    obtain ⟨s2, hr⟩ := readBody_empty L S' { r with
      handlers := some H, stream := s', post_ := some (.form post), files_ := some files }
      p3 p4 (by rw [hS.2.1]; exact hmem)
    have f1 := (finishBody_fresh (C := E.C) (by exact h7) (by exact h8) hr).1 [] (hcodec.decode [] (by simp))
    rw [hby] at hpr
    simp only [f1] at hpr
    exact ⟨{ r with
      handlers := some H, stream := s2, post_ := some (.form post), files_ := some files
      post := some (.form post), files := some files, body_ := some (.u []), bodyParsed := true }, hpr,
      ⟨h3.1, h3.2, h3.3, h3.4, h3.5, h3.6, h3.7, h3.8, h3.9⟩, rfl, rfl, rfl⟩
  · have hby : ∃ r', parseByType E S' H { r with handlers := some H, stream := s } w1 = (.error e, r', w') ∧
        HeadRead m host port (some type) qs r' ∧ r'.bodyParsed = false ∧ r'.post = r.post ∧ r'.files = r.files ∧
        (r'.files_ = none ∨ r'.files_ = some []) := by
      unfold parseByType
      simp only [h3.contentType, Option.map_some, hlo]
      rw [if_pos trivial]
      unfold parseFileUpload
      simp only [hi1, Option.bind_some]
      rw [if_neg hc]
      simp only [hct', hcl', hcreate, htext, MultiPart.run, Bool.false_eq_true, if_false, p1]
      split
      · rename_i heq
        cases heq
        simp only [markError, hqd]
        exact ⟨_, rfl, ⟨h3.1, h3.2, h3.3, h3.4, h3.5, h3.6, h3.7, by simp [hlo], ⟨hd, rfl, hi2⟩⟩, h7, rfl, rfl, .inr rfl⟩
      · rename_i heq
        cases heq
        exact ⟨_, rfl, ⟨h3.1, h3.2, h3.3, h3.4, h3.5, h3.6, h3.7, by simp [hlo], ⟨hd, rfl, hi2⟩⟩, h7, rfl, rfl, .inl hfn⟩
      · rename_i heq
        cases heq
    obtain ⟨r', b1, b2, b3, b4, b5, b6⟩ := hby
    rw [b1] at hpr
    exact ⟨r', hpr, b2, b3, b4.trans h9, b5.trans h10, b6⟩

/-- **C78** (and the part of **C96** that holds).  A form sent as multipart: `POST` has the fields with their values
in order, `FILES` the files, each with its name, its size and its content, no two in the same place.  The handlers are the library's own.
The media type may be written in any case of the letters after `multipart/`.  Missing for C96: other cases of
`multipart` itself (`C96_refuted`). -/
theorem C96_partial {L : Lawful ρ} {E : Env ρ BWorld Uploaded} {S : Settings} {p : ρ} {m : Message}
    {host port type : Bytes} {ps : List (Bytes × Bytes)} {qs : List (UStr × UStr)}
    (h : Arrives L E.C S p m host port (some type) ps qs)
    (hty : b!"multipart/" <+: type) (hlo : Py.lower type = b!"multipart/form-data")
    {b cl : Bytes} {n : Nat} (hb : param ps b!"boundary" = some b) (hbo : BoundaryOk (Py.toU b))
    (hcl : m.header b!"Content-Length" = some cl) (hn : Numeral 10 DecDigit cl n) (h0 : n ≠ 0)
    (h13 : 13 ∉ b)
    {pre : Option Bytes} {epi : Bytes} (ha : Around b pre epi) (its : List FormItem)
    (hok : ∀ it ∈ its, it.Ok b) (hbody : m.body = renderForm b its pre epi) (hlim : InLimits S its)
    (hmem : Allowed S.dataMaxMemory 0)
    (os : Os) (hos : ∀ e, os.tempFile e = .ok ()) (w : BWorld) (hs : List Builtin) (heap : Heap)
    (hl : E.load w = (.ok (builtinOps ρ os hs.length), ⟨hs, heap⟩)) (ht : Takes S n hs) :
    ∃ (r0 r' : Req ρ BWorld Uploaded) (w' : BWorld) (post : MVD PostItem) (files : MVD Uploaded),
      Req.new E.C S p = .ok r0 ∧
      parseRequest E S r0 w = (.ok (), charsetAfter S ps, r', w') ∧
      HeadRead m host port (some type) qs r' ∧ r'.bodyParsed = true ∧
      r'.post = some (.form post) ∧ r'.files = some files ∧
      (∀ n, Dict.get? post n = if (fieldsOf its).filter (fun p => p.1 = n) = [] then none
        else some (((fieldsOf its).filter (fun p => p.1 = n)).map (fun p => plainItem p.2))) ∧
      (∃ fs : List Uploaded, List.Forall₂ (fun p f => Holds w'.heap p.2.1 p.2.2 f) (filesOf its) fs ∧
        (fs.map Uploaded.ref).Nodup ∧ (Dict.keys files).Nodup ∧ ∀ n, Dict.get? files n =
          if ((filesOf its).zip fs).filter (fun p => p.1.1 = n) = [] then none
          else some ((((filesOf its).zip fs).filter (fun p => p.1.1 = n)).map Prod.snd)) := by
  have hne : m.body ≠ [] := by rw [hbody]; simp [renderForm]
  have hhs : hs.length ≠ 0 := by
    obtain ⟨⟨x, hx, _⟩, _⟩ := ht
    intro hh
    rw [List.length_eq_zero_iff.1 hh] at hx
    cases hx
  obtain ⟨r0, s, h1, h2, h3, h4, h5, h6, -⟩ := multipart_arrives h hty hlo hb hbo hcl hn hne hmem hl hhs
  have hS := charsetAfter_fields S ps
  obtain ⟨post, files, s', w', p1, p2, ⟨p3, p4⟩, p5⟩ := form_files (L := L) E.C (charsetAfter S ps) os hos E.fuel64
    ⟨b, chunkSizeOf (builtinOps ρ os hs.length), n⟩ h4 h0 h13 ha h5 h.codec.str its hok
    ⟨by rw [hS.1]; exact hlim.count, by rw [hS.2.1]; exact hlim.memory⟩ hs heap
    (by unfold Takes at ht ⊢; rw [hS.2.2]; exact ht) s h2 (h3.trans hbody)
  obtain ⟨r', a1, a2, a3, a4, a5⟩ := h6 post files s' w' p1 p3 p4
  exact ⟨r0, r', w', post, files, h1, a1, a2, a3, a4, a5, p2, p5⟩

/-- **C96 is false of the code**: media types are compared without regard to case (RFC 7231), and the request object
does so, but the multipart parser does not.  A multipart request whose type is written with another case of
`multipart` is refused with `MultiPartParserError`, whatever is in it. -/
theorem C96_refuted {σ F : Type} {L : Lawful ρ} {E : Env ρ σ F} {S : Settings} {p : ρ} {m : Message}
    {host port type : Bytes} {ps : List (Bytes × Bytes)} {qs : List (UStr × UStr)}
    (h : Arrives L E.C S p m host port (some type) ps qs)
    (hty : ¬ b!"multipart/" <+: type) (hlo : Py.lower type = b!"multipart/form-data") (hne : m.body ≠ [])
    {w w1 : σ} {H : HandlerOps ρ σ F} (hl : E.load w = (.ok H, w1)) (hc : H.count ≠ 0) :
    ∃ (r0 r' : Req ρ σ F), Req.new E.C S p = .ok r0 ∧
      parseRequest E S r0 w = (.error .multiPartParserError, charsetAfter S ps, r', w1) ∧ r'.bodyParsed = false := by
  obtain ⟨r0, r, h1, h2, h3, h4, h5, h6, h7, h8, h9, h10⟩ := header_new (σ := σ) (F := F) h
  obtain ⟨s, a1, a2, a3⟩ := parseBodyStream_full (E := E) (S := charsetAfter S ps) (w := w1) (H := H)
    (r := { r with handlers := some H }) (k := 2) (by omega) h4 (by rw [h5]; exact hne)
  obtain ⟨hd, hi1, hi2⟩ := h3.info
  have hlast : (hd.get? b!"Content-Type").bind List.getLast? = m.header b!"Content-Type" := by
    rw [hi2, Message.header, ← Message.getLast_filter]
    by_cases hk2 : b!"Content-Type" ∈ m.headers.map Prod.fst
    · rw [if_neg (by rintro (⟨h, _⟩ | h); exacts [absurd h (by decide), h hk2]), if_pos hk2]
    · rw [if_pos (.inr hk2), if_neg hk2]
  obtain ⟨htv, ct, hct, hmt⟩ := h.content
  rw [hct] at hlast
  have hpre : ∀ {ps s}, MediaText type ps s → type <+: s := by
    intro ps s hmt
    induction hmt with
    | nil => exact List.prefix_refl _
    | snoc _ _ _ _ ih => rw [List.append_assoc]; exact ih.trans (List.prefix_append _ _)
  have hlen : type.length = 19 := by
    have := congrArg List.length hlo
    simpa [Py.lower] using this
  have hcreate : MultiPart.create E.C H (some ct) ((hd.get? b!"Content-Length").bind List.getLast?) =
      .error .multiPartParserError := by
    apply C32_not_multipart
    rw [Bool.eq_false_iff]
    intro hc
    have := List.isPrefixOf_iff_prefix.1 hc
    exact hty (List.prefix_of_prefix_length_le this (hpre hmt) (by rw [hlen]; decide))
  have hq := queryDict_none h.codec (by rw [(charsetAfter_fields S ps).1]; exact h.limit.one) false
  have hby : parseByType E (charsetAfter S ps) H { r with handlers := some H, stream := s } w1 =
      (.error .multiPartParserError, { r with handlers := some H, stream := s, post_ := some (.query ⟨[], false⟩), files_ := some [] }, w1) := by
    unfold parseByType
    simp only [h3.contentType, Option.map_some, hlo]
    rw [if_pos trivial]
    unfold parseFileUpload
    simp only [hi1, Option.bind_some]
    rw [if_neg hc]
    simp only [hlast, hcreate, markError, hq]
  have hpr := parseRequest_body h2 h6 h7 hl
  rw [a3, hby] at hpr
  exact ⟨r0, _, h1, hpr, h7⟩

/-- **C78.**  A form sent as multipart: `POST` has the fields with their values in order, `FILES` the
files, each with its name, its size and its content, no two in the same place.  The handlers are the library's own. -/
theorem C78_multipart {L : Lawful ρ} {E : Env ρ BWorld Uploaded} {S : Settings} {p : ρ} {m : Message}
    {host port : Bytes} {ps : List (Bytes × Bytes)} {qs : List (UStr × UStr)}
    (h : Arrives L E.C S p m host port (some b!"multipart/form-data") ps qs)
    {b cl : Bytes} {n : Nat} (hb : param ps b!"boundary" = some b) (hbo : BoundaryOk (Py.toU b))
    (hcl : m.header b!"Content-Length" = some cl) (hn : Numeral 10 DecDigit cl n) (h0 : n ≠ 0)
    (h13 : 13 ∉ b)
    {pre : Option Bytes} {epi : Bytes} (ha : Around b pre epi) (its : List FormItem)
    (hok : ∀ it ∈ its, it.Ok b) (hbody : m.body = renderForm b its pre epi) (hlim : InLimits S its)
    (hmem : Allowed S.dataMaxMemory 0)
    (os : Os) (hos : ∀ e, os.tempFile e = .ok ()) (w : BWorld) (hs : List Builtin) (heap : Heap)
    (hl : E.load w = (.ok (builtinOps ρ os hs.length), ⟨hs, heap⟩)) (ht : Takes S n hs) :
    ∃ (r0 r' : Req ρ BWorld Uploaded) (w' : BWorld) (post : MVD PostItem) (files : MVD Uploaded),
      Req.new E.C S p = .ok r0 ∧
      parseRequest E S r0 w = (.ok (), charsetAfter S ps, r', w') ∧
      HeadRead m host port (some b!"multipart/form-data") qs r' ∧ r'.bodyParsed = true ∧
      r'.post = some (.form post) ∧ r'.files = some files ∧
      (∀ n, Dict.get? post n = if (fieldsOf its).filter (fun p => p.1 = n) = [] then none
        else some (((fieldsOf its).filter (fun p => p.1 = n)).map (fun p => plainItem p.2))) ∧
      (∃ fs : List Uploaded, List.Forall₂ (fun p f => Holds w'.heap p.2.1 p.2.2 f) (filesOf its) fs ∧
        (fs.map Uploaded.ref).Nodup ∧ (Dict.keys files).Nodup ∧ ∀ n, Dict.get? files n =
          if ((filesOf its).zip fs).filter (fun p => p.1.1 = n) = [] then none
          else some ((((filesOf its).zip fs).filter (fun p => p.1.1 = n)).map Prod.snd)) :=
  C96_partial h (by decide) (by decide +kernel) hb hbo hcl hn h0 h13 ha its hok hbody hlim hmem os hos w hs heap hl ht

end
end Verif

/-! ### Requests that meet the hypotheses -/

namespace Verif
open Spec

/-- UTF-8, ASCII and Latin-1 as Python has them. -/
theorem py_asciiCodec {enc : Bytes} {e : Enc} (he : lookupEnc enc = some e) : AsciiCodec pyCodecs enc where
  replace := py_asciiCompat he
  decode := py_decode_ascii he
  str := fun b hb => by
    simp only [pyCodecs, he, (isAscii_iff b).2 hb, if_true]

/-- A form with a query string; the host is in the target. -/
def sampleMessage : Message where
  method := b!"POST"
  scheme := b!"HTTP"
  authority := b!"Example.com.:8080"
  path := b!"/a/b"
  query := b!"x=%C3%A9&y="
  proto := b!"HTTP/1.1"
  headers := [(b!"Content-Type", b!"Application/X-WWW-Form-Urlencoded; Charset=\"utf-8\""), (b!"X", b!""), (b!"X", b!"a b")]
  body := b!"k=v+w"

theorem sampleMessage_ok : sampleMessage.Ok where
  method := by decide +kernel
  proto := by decide +kernel
  scheme := by decide +kernel
  path := by decide +kernel
  slash := ⟨b!"a/b", by decide, by decide⟩
  query := by decide +kernel
  names := by decide +kernel
  values := by
    have : ∀ p ∈ sampleMessage.headers, (∀ c ∈ p.2, Visible c ∨ c = 32 ∨ c = 9) ∧
      (∀ c, p.2.head? = some c → Visible c) ∧ (∀ c, p.2.getLast? = some c → Visible c) := by decide +kernel
    intro p hp
    obtain ⟨h1, h2, h3⟩ := this p hp
    exact ⟨h1, fun c hc => hc.elim (h2 c) (h3 c)⟩
  some := by decide

theorem formEnc_plain : ∀ {t : Bytes}, (∀ c ∈ t, c ∉ b!"%+&;=" ∧ c < 128) → FormEnc t t
  | [], _ => .nil
  | c :: _, h => .lit c (h c (by simp)).1 (h c (by simp)).2 (formEnc_plain fun d hd => h d (by simp [hd]))

theorem sampleMessage_query : Written pyCodecs b!"utf-8" [(Py.toU b!"x", [233]), (Py.toU b!"y", [])] b!"x=%C3%A9&y=" :=
  ⟨[b!"x=%C3%A9", b!"y="],
    .cons (kb := b!"x") (vb := [0xC3, 0xA9]) (kt := b!"x") (vt := b!"%C3%A9") (formEnc_plain (by decide +kernel))
      (.esc 67 51 12 3 rfl rfl (.esc 65 57 10 9 rfl rfl .nil))
      (by rw [py_replace lookup_utf8]; decide +kernel) (by rw [py_replace lookup_utf8]; decide +kernel)
      (.cons (kb := b!"y") (vb := []) (kt := b!"y") (vt := []) (formEnc_plain (by decide +kernel)) .nil
        (by rw [py_replace lookup_utf8]; decide +kernel) (by rw [py_replace lookup_utf8]; decide +kernel) .nil),
    .cons b!"x=%C3%A9" 38 (.inl rfl) (by simp) (.one b!"y=")⟩

theorem sampleMessage_body : Written pyCodecs b!"utf-8" [(Py.toU b!"k", Py.toU b!"v w")] b!"k=v+w" :=
  ⟨[b!"k=v+w"],
    .cons (kb := b!"k") (vb := b!"v w") (kt := b!"k") (vt := b!"v+w") (formEnc_plain (by decide +kernel))
      (.lit 118 (by decide) (by decide) (.plus (formEnc_plain (by decide +kernel))))
      (by rw [py_replace lookup_utf8]; decide +kernel) (by rw [py_replace lookup_utf8]; decide +kernel) .nil,
    .one _⟩

/-- The sample request arrives, however it is cut. -/
theorem sampleMessage_arrives (cs : List Bytes) (h : cs.flatten = sampleMessage.text) :
    Arrives Source.lawful pyCodecs { maxFields := some 2, dataMaxMemory := some 5 } ⟨cs⟩ sampleMessage b!"example.com"
      b!"8080" (some b!"Application/X-WWW-Form-Urlencoded") [(b!"Charset", b!"utf-8")]
      [(Py.toU b!"x", [233]), (Py.toU b!"y", [])] where
  size := by decide
  inv := trivial
  ok := sampleMessage_ok
  text := h
  host := ⟨b!"Example.com.:8080", b!"example.com.", .inl ⟨by decide, rfl⟩,
    ⟨.inl ⟨by decide, by unfold nameByte; decide +kernel⟩, by unfold digitByte; decide +kernel,
      .inr ⟨by decide, by decide +kernel⟩⟩, .inl rfl⟩
  content := ⟨by decide +kernel, b!"Application/X-WWW-Form-Urlencoded; Charset=\"utf-8\"", by decide +kernel,
    .snoc (s := b!"Application/X-WWW-Form-Urlencoded") (n := b!"Charset") (v := b!"utf-8") (t := b!"Charset=\"utf-8\"")
      (ps := []) .nil (by decide +kernel) (by decide +kernel) (.inr rfl)⟩
  codec0 := py_asciiCodec (e := .latin1) (by decide +kernel)
  codec := py_asciiCodec (e := .utf8) (by decide +kernel)
  query := sampleMessage_query
  limit := by intro l hl; cases hl; exact .inr ⟨by decide, by decide +kernel⟩

example (cs : List Bytes) (h : cs.flatten = sampleMessage.text) (E : Env Source Unit Unit) (hE : E.C = pyCodecs)
    (H : HandlerOps Source Unit Unit) (hl : E.load () = (.ok H, ())) :=
  C77_form (hE ▸ sampleMessage_arrives cs h) (by decide +kernel) (by decide) (hE ▸ sampleMessage_body)
    ⟨5, rfl, by decide⟩ (by intro l hl; cases hl; exact .inr ⟨by decide, by decide +kernel⟩) hl

/-- A form with a file; the host is in a header. -/
def sampleUpload : Message where
  method := b!"PUT"
  path := b!"/"
  proto := b!"HTTP/1.0"
  headers := [(b!"Host", b!"[::1]"), (b!"Content-Type", b!"multipart/form-data; boundary==_Bd'1"),
    (b!"Content-Length", b!"0300")]
  body := renderForm b!"=_Bd'1" sampleForm (some b!"hello\r\n") b!"\r\nbye\r\n--=_Bd"

theorem sampleUpload_ok : sampleUpload.Ok where
  method := by decide +kernel
  proto := by decide +kernel
  scheme := by decide +kernel
  path := by decide +kernel
  slash := ⟨[], by decide, by decide⟩
  query := by decide +kernel
  names := by decide +kernel
  values := by
    have : ∀ p ∈ sampleUpload.headers, (∀ c ∈ p.2, Visible c ∨ c = 32 ∨ c = 9) ∧
      (∀ c, p.2.head? = some c → Visible c) ∧ (∀ c, p.2.getLast? = some c → Visible c) := by decide +kernel
    intro p hp
    obtain ⟨h1, h2, h3⟩ := this p hp
    exact ⟨h1, fun c hc => hc.elim (h2 c) (h3 c)⟩
  some := by decide

theorem sampleUpload_arrives (cs : List Bytes) (h : cs.flatten = sampleUpload.text) :
    Arrives Source.lawful pyCodecs {} ⟨cs⟩ sampleUpload b!"[::1]" [] (some b!"multipart/form-data")
      [(b!"boundary", b!"=_Bd'1")] [] where
  size := by decide
  inv := trivial
  ok := sampleUpload_ok
  text := h
  host := ⟨b!"[::1]", b!"[::1]", .inr ⟨by decide, by decide +kernel⟩,
    ⟨.inr ⟨[], b!":1", by decide, by simp, by decide, by unfold hexByte; decide +kernel⟩, by simp,
      .inl ⟨rfl, by decide +kernel⟩⟩, .inr ⟨rfl, fun x hx => by
        have := congrArg List.getLast? hx
        simp at this⟩⟩
  content := ⟨by decide +kernel, b!"multipart/form-data; boundary==_Bd'1", by decide +kernel,
    .snoc (s := b!"multipart/form-data") (n := b!"boundary") (v := b!"=_Bd'1") (t := b!"boundary==_Bd'1")
      (ps := []) .nil (by decide +kernel) (by decide +kernel) (.inl ⟨by decide +kernel, rfl⟩)⟩
  codec0 := py_asciiCodec (e := .latin1) (by decide +kernel)
  codec := py_asciiCodec (e := .latin1) (by decide +kernel)
  query := ⟨[], .nil, .nil⟩
  limit := by intro l hl; cases hl; exact .inr ⟨by decide, by decide +kernel⟩

example (cs : List Bytes) (h : cs.flatten = sampleUpload.text) :=
  C78_multipart (E := ⟨pyCodecs, [], fun _ => (.ok (builtinOps Source goodOs 1), ⟨[.temp {}], []⟩), 0⟩)
    (sampleUpload_arrives cs h) (b := b!"=_Bd'1") (cl := b!"0300") (n := 300) (by decide +kernel)
    ⟨[61, 95, 66, 100, 39], 49, .inl (by decide), by decide, by decide, by decide, by decide⟩
    (by decide +kernel)
    (.more (.more (.more (.one (v := 0) rfl) (v := 3) rfl) (v := 0) rfl) (v := 0) rfl) (by decide) (by decide)
    sampleAround sampleForm sampleForm_ok rfl
    ⟨by intro n h; simp at h; subst h; decide, by intro n h; simp at h; subst h; decide⟩ ⟨_, rfl, by decide⟩
    goodOs (fun _ => rfl) ⟨[], []⟩ [.temp {}] [] rfl ⟨⟨.temp {}, by simp, trivial⟩, by simp⟩

/-- The same upload with the media type in capitals. -/
def shoutedUpload : Message :=
  { sampleUpload with headers := [(b!"Host", b!"[::1]"),
      (b!"Content-Type", b!"MULTIPART/FORM-DATA; boundary==_Bd'1"), (b!"Content-Length", b!"0300")] }

theorem shoutedUpload_arrives (cs : List Bytes) (h : cs.flatten = shoutedUpload.text) :
    Arrives Source.lawful pyCodecs {} ⟨cs⟩ shoutedUpload b!"[::1]" [] (some b!"MULTIPART/FORM-DATA")
      [(b!"boundary", b!"=_Bd'1")] [] where
  size := by decide
  inv := trivial
  ok :=
    { sampleUpload_ok with
      names := by decide +kernel
      values := by
        have : ∀ p ∈ shoutedUpload.headers, (∀ c ∈ p.2, Visible c ∨ c = 32 ∨ c = 9) ∧
          (∀ c, p.2.head? = some c → Visible c) ∧ (∀ c, p.2.getLast? = some c → Visible c) := by decide +kernel
        intro p hp
        obtain ⟨h1, h2, h3⟩ := this p hp
        exact ⟨h1, fun c hc => hc.elim (h2 c) (h3 c)⟩
      some := by decide }
  text := h
  host := ⟨b!"[::1]", b!"[::1]", .inr ⟨by decide, by decide +kernel⟩,
    ⟨.inr ⟨[], b!":1", by decide, by simp, by decide, by unfold hexByte; decide +kernel⟩, by simp,
      .inl ⟨rfl, by decide +kernel⟩⟩, .inr ⟨rfl, fun x hx => by
        have := congrArg List.getLast? hx
        simp at this⟩⟩
  content := ⟨by decide +kernel, b!"MULTIPART/FORM-DATA; boundary==_Bd'1", by decide +kernel,
    .snoc (s := b!"MULTIPART/FORM-DATA") (n := b!"boundary") (v := b!"=_Bd'1") (t := b!"boundary==_Bd'1")
      (ps := []) .nil (by decide +kernel) (by decide +kernel) (.inl ⟨by decide +kernel, rfl⟩)⟩
  codec0 := py_asciiCodec (e := .latin1) (by decide +kernel)
  codec := py_asciiCodec (e := .latin1) (by decide +kernel)
  query := ⟨[], .nil, .nil⟩
  limit := by intro l hl; cases hl; exact .inr ⟨by decide, by decide +kernel⟩

example (cs : List Bytes) (h : cs.flatten = shoutedUpload.text) :=
  C96_refuted (E := ⟨pyCodecs, [], fun _ => (.ok (builtinOps Source goodOs 1), ⟨[.temp {}], []⟩), 0⟩) (w := ⟨[], []⟩)
    (shoutedUpload_arrives cs h) (by decide) (by decide +kernel) (by simp [shoutedUpload, sampleUpload, renderForm]) rfl
    (by decide)

end Verif
