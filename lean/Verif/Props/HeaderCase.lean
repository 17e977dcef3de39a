import Verif.Props.Stale
/-!
# The names of the request headers (C136) and bodies sent in chunks (C137)
-/

namespace Verif
open Spec

namespace Spec

/-- The same request with its headers called otherwise. -/
def Message.rename (f : Bytes → Bytes) (m : Message) : Message :=
  { m with headers := m.headers.map (fun p => (f p.1, p.2)) }

/-- `f` changes names at most in case, and never from or to one of the three names that are looked at. -/
structure Recased (f : Bytes → Bytes) : Prop where
  case : ∀ n, Py.lower (f n) = Py.lower n
  host : ∀ n, f n = b!"Host" ↔ n = b!"Host"
  type : ∀ n, f n = b!"Content-Type" ↔ n = b!"Content-Type"
  length : ∀ n, f n = b!"Content-Length" ↔ n = b!"Content-Length"

end Spec

section
variable {ρ σ F : Type} [Producer ρ]

/-- No such header. -/
theorem header_none {m : Message} {k : Bytes} (h : ∀ p ∈ m.headers, p.1 ≠ k) : m.header k = none := by
  unfold Message.header lastValue
  rw [List.find?_eq_none.2 (fun x hx => by simpa using h x (List.mem_reverse.1 hx))]
  rfl

/-- **C136 is false of the code, for every request whose target begins with the path and whose host is not under the name
`Host` written exactly so** (`host: a.b`, as many programs write it): `NoHostFoundException`. -/
theorem C136_host_refuted (L : Lawful ρ) (E : Env ρ σ F) (S : Settings) (hS : 1 ≤ S.maxHeaderSize) (r : Req ρ σ F)
    (hr : r.headerParsed = false) (p : ρ) (hp : r.stream = LazyStream.mk' p) (hI : L.Inv p) (m : Message) (hm : m.Ok)
    (hc : L.content p = m.text) (hs : m.scheme = []) (hn : ∀ q ∈ m.headers, q.1 ≠ b!"Host") (w : σ) :
    (parseRequest E S r w).1 = .error .noHostFound := by
  have hav : m.scheme ≠ [] → ∀ c ∈ m.authority, Visible c := fun h => absurd hs h
  obtain ⟨head, he1, he2⟩ := m.first_end hm hav
  rw [← hc] at he1
  obtain ⟨i, h1, rfl, hbody⟩ := firstEnd_iff.1 he1
  have hsc : L.sc r.stream = L.content p := by rw [hp]; rfl
  rcases parseRequestHeader_spec (L := L) (k := 0) (by omega) E S hS r hr
      (by rw [hp]; exact SK.fresh L p hI) with ⟨j, s', a1, a2, a3, a4⟩ | ⟨a1, _⟩
  case inr => rw [hsc, h1] at a1; cases a1
  rw [hsc] at a1 a2 a4
  rw [h1] at a1
  cases a1
  obtain ⟨hd, p1, p2⟩ := m.parse_headers hm hav
  have hno : Dict.get? hd b!"Host" = none := by
    rw [p2, if_neg]
    intro hk
    obtain ⟨q, hq, e⟩ := List.mem_map.1 hk
    exact hn q hq e
  have key : ∃ S' r', parseRequestHeader E S r = (.error .noHostFound, S', r') := by
    rw [a2]
    unfold applyHeader
    rw [he2, p1]
    simp only
    rw [m.parse_line E.up hm (fun h => absurd hs h)]
    simp only
    have : hostText m.reqLine hd = .error .noHostFound := by
      unfold hostText
      have : m.reqLine.domain = [] := by simp [Message.reqLine, hs]
      rw [this, if_neg (by simp), hno]
    rw [this]
    exact ⟨_, _, rfl⟩
  obtain ⟨S', r', key⟩ := key
  unfold parseRequest
  rw [key]

/-- A request with the host `a.b`, another header and a body. -/
def oneHeader (n v body : Bytes) : Message where
  method := b!"POST"
  path := b!"/"
  proto := b!"HTTP/1.1"
  headers := [(b!"Host", b!"a.b"), (n, v)]
  body := body

theorem visible_lower (c : UInt8) : (Visible c ∧ c ≠ 58) ↔ (Visible (Py.lowerByte c) ∧ Py.lowerByte c ≠ 58) := by
  have := forall_u8 (fun c => decide ((Visible c ∧ c ≠ 58) ↔ (Visible (Py.lowerByte c) ∧ Py.lowerByte c ≠ 58)))
    (by unfold Visible; decide +kernel) c
  exact decide_eq_true_iff.1 this

/-- Case does not make a name a bad one. -/
theorem name_chars {a b : Bytes} (h : Py.lower a = Py.lower b) (hb : ∀ c ∈ b, Visible c ∧ c ≠ 58) :
    ∀ c ∈ a, Visible c ∧ c ≠ 58 := by
  intro c hc
  rw [visible_lower]
  have : Py.lowerByte c ∈ Py.lower b := by rw [← h]; exact List.mem_map_of_mem hc
  obtain ⟨d, hd, e⟩ := List.mem_map.1 this
  rw [← e]
  exact (visible_lower d).1 (hb d hd)

/-- **C136**, what is true: the case of the names of all other headers does not matter.  A request with some of them in
another case arrives as the same request (so that all theorems about whole requests say the same about it), and the
attributes of the request object are the same, up to the names in `META`. -/
theorem C136_partial {L : Lawful ρ} {E : Env ρ σ F} {S : Settings} {p p' : ρ} {m : Message} {host port : Bytes}
    {type : Option Bytes} {ps : List (Bytes × Bytes)} {qs : List (UStr × UStr)}
    (h : Arrives L E.C S p m host port type ps qs) {f : Bytes → Bytes} (hf : Recased f) (hI : L.Inv p')
    (hc : L.content p' = (m.rename f).text) :
    Arrives L E.C S p' (m.rename f) host port type ps qs ∧ (m.rename f).body = m.body ∧
    (m.rename f).header b!"Content-Length" = m.header b!"Content-Length" ∧
    ∃ r1 r2 r1' r2' : Req ρ σ F, Req.new E.C S p = .ok r1 ∧ Req.new E.C S p' = .ok r2 ∧
      parseRequestHeader E S r1 = (.ok (), charsetAfter S ps, r1') ∧
      parseRequestHeader E S r2 = (.ok (), charsetAfter S ps, r2') ∧
      r1'.method = r2'.method ∧ r1'.scheme = r2'.scheme ∧ r1'.host = r2'.host ∧ r1'.port = r2'.port ∧
      r1'.path = r2'.path ∧ r1'.proto = r2'.proto ∧ r1'.get = r2'.get ∧ r1'.contentType = r2'.contentType := by
  have hh : ∀ k, (∀ n, f n = k ↔ n = k) → (m.rename f).header k = m.header k := by
    intro k hk
    unfold Message.header lastValue Message.rename
    rw [← List.map_reverse, List.find?_map]
    have : ((fun p : Bytes × Bytes => decide (p.1 = k)) ∘ fun p : Bytes × Bytes => (f p.1, p.2)) =
        fun p => decide (p.1 = k) := by
      funext q
      simp only [Function.comp_apply, hk]
    rw [this]
    cases m.headers.reverse.find? (fun p => decide (p.1 = k)) <;> rfl
  have ha : Arrives L E.C S p' (m.rename f) host port type ps qs :=
    { size := h.size
      inv := hI
      ok := { h.ok with
        names := by
          intro q hq
          obtain ⟨q0, hq0, rfl⟩ := List.mem_map.1 hq
          exact name_chars (hf.case _) (h.ok.names q0 hq0)
        values := by
          intro q hq
          obtain ⟨q0, hq0, rfl⟩ := List.mem_map.1 hq
          exact h.ok.values q0 hq0
        some := by
          intro e
          exact h.ok.some (List.map_eq_nil_iff.1 e) }
      text := hc
      host := by
        obtain ⟨t, d, h1, h2, h3⟩ := h.host
        refine ⟨t, d, ?_, h2, h3⟩
        rcases h1 with h1 | ⟨h1, h1'⟩
        · exact .inl h1
        · exact .inr ⟨h1, (hh _ hf.host).trans h1'⟩
      content := by
        have hct := h.content
        cases type with
        | none => exact ⟨(hh _ hf.type).trans hct.1, hct.2⟩
        | some t =>
          obtain ⟨h1, s, h2, h3⟩ := hct
          exact ⟨h1, s, (hh _ hf.type).trans h2, h3⟩
      codec0 := h.codec0
      codec := h.codec
      query := h.query
      limit := h.limit }
  refine ⟨ha, rfl, hh _ hf.length, ?_⟩
  obtain ⟨r1, r1', a1, a2, a3⟩ := C76_header (σ := σ) (F := F) h
  obtain ⟨r2, r2', b1, b2, b3⟩ := C76_header (σ := σ) (F := F) ha
  refine ⟨r1, r2, r1', r2', a1, b1, a2, b2, a3.method.trans b3.method.symm, a3.scheme.trans b3.scheme.symm,
    a3.host.trans b3.host.symm, ?_, a3.path.trans b3.path.symm, a3.proto.trans b3.proto.symm, a3.get.trans b3.get.symm,
    a3.contentType.trans b3.contentType.symm⟩
  obtain ⟨q1, e1, c1⟩ := a3.port
  obtain ⟨q2, e2, c2⟩ := b3.port
  rw [e1, e2]
  congr 1
  have c2 : PortIs m.scheme port q2 := c2
  unfold PortIs at c1 c2
  by_cases h0 : port = []
  · by_cases hs : Py.lower m.scheme = b!"https"
    · rw [c1.2.1 h0 hs, c2.2.1 h0 hs]
    · by_cases hp : Py.lower m.scheme = b!"http"
      · rw [c1.2.2.1 h0 hp, c2.2.2.1 h0 hp]
      · rw [c1.2.2.2 h0 hs hp, c2.2.2.2 h0 hs hp]
  · rw [c1.1 h0, c2.1 h0]

/-- The headers of `oneHeader` are in order. -/
theorem oneHeader_ok {n k v body : Bytes} (hn : Py.lower n = Py.lower k) (hk : ∀ c ∈ k, Visible c ∧ c ≠ 58)
    (hv : ∀ c ∈ v, Visible c) : (oneHeader n v body).Ok where
  method := by show ∀ c ∈ (b!"POST" : Bytes), c ≠ 32 ∧ c ≠ 13; decide +kernel
  proto := by show ∀ c ∈ (b!"HTTP/1.1" : Bytes), c ≠ 32 ∧ c ≠ 13; decide +kernel
  scheme := by simp [oneHeader]
  path := by show ∀ c ∈ (b!"/" : Bytes), Visible c ∧ c ∉ b!"?#;"; decide +kernel
  slash := ⟨[], rfl, by decide⟩
  query := by simp [oneHeader]
  names := by
    intro q hq
    simp only [oneHeader, List.mem_cons, List.not_mem_nil, or_false] at hq
    rcases hq with rfl | rfl
    · decide +kernel
    · exact name_chars hn hk
  values := by
    intro q hq
    simp only [oneHeader, List.mem_cons, List.not_mem_nil, or_false] at hq
    rcases hq with rfl | rfl
    · have h1 : ∀ c ∈ (b!"a.b" : Bytes), Visible c := by decide +kernel
      exact ⟨fun c hc => .inl (h1 c hc), fun c hc => h1 c (hc.elim List.mem_of_mem_head? List.mem_of_getLast?)⟩
    · exact ⟨fun c hc => .inl (hv c hc), fun c hc => hv c (hc.elim List.mem_of_mem_head? List.mem_of_getLast?)⟩
  some := by simp [oneHeader]

/-- It arrives as a request without content type, if the other header has another name. -/
theorem oneHeader_arrives {L : Lawful ρ} {n k v body : Bytes} (hn : Py.lower n = Py.lower k)
    (hk : ∀ c ∈ k, Visible c ∧ c ≠ 58) (hv : ∀ c ∈ v, Visible c) (h1 : n ≠ b!"Host") (h2 : n ≠ b!"Content-Type") {p : ρ}
    (hI : L.Inv p) (hc : L.content p = (oneHeader n v body).text) :
    Arrives L pyCodecs {} p (oneHeader n v body) b!"a.b" [] none [] [] where
  size := by decide
  inv := hI
  ok := oneHeader_ok hn hk hv
  text := hc
  host := ⟨b!"a.b", b!"a.b", .inr ⟨rfl, by simp [Message.header, lastValue, oneHeader, h1]⟩,
    ⟨.inl ⟨by decide, by unfold nameByte; decide +kernel⟩, by simp, .inl ⟨rfl, by decide +kernel⟩⟩,
    .inr ⟨rfl, fun x hx => by
      have := congrArg List.getLast? hx
      simp at this⟩⟩
  content := ⟨by simp [Message.header, lastValue, oneHeader, h2], rfl⟩
  codec0 := py_asciiCodec (e := .latin1) (by decide +kernel)
  codec := py_asciiCodec (e := .latin1) (by decide +kernel)
  query := ⟨[], .nil, .nil⟩
  limit := by intro l hl; cases hl; exact .inr ⟨by decide, by show ((numPieces [] : Nat) : Int) ≤ 4096; decide +kernel⟩

/-- The default charset takes every byte. -/
theorem latin_decode (b : Bytes) : pyCodecs.decode b!"ISO-8859-1" b = .ok (Py.toU b) := by
  have : lookupEnc b!"ISO-8859-1" = some .latin1 := by decide +kernel
  simp only [pyCodecs, this, Enc.decode]

/-- **C136 is false of the code**: a form is not parsed, and no error is reported, if the name of its content type is not
written exactly `Content-Type`.  Any other case of the letters, any body within the limit, any stream, the default
settings. -/
theorem C136_type_refuted (L : Lawful ρ) (E : Env ρ σ F) (hE : E.C = pyCodecs) (n : Bytes)
    (hn : Py.lower n = b!"content-type") (hne : n ≠ b!"Content-Type") (body : Bytes) (h0 : body ≠ [])
    (hl : body.length ≤ 5 * 2 ^ 20) (p : ρ) (hI : L.Inv p)
    (hc : L.content p = (oneHeader n b!"application/x-www-form-urlencoded" body).text) (w w1 : σ) (H : HandlerOps ρ σ F)
    (hld : E.load w = (.ok H, w1)) :
    ∃ r0 r' : Req ρ σ F, Req.new E.C {} p = .ok r0 ∧ parseRequest E {} r0 w = (.ok (), {}, r', w1) ∧
      r'.bodyParsed = true ∧ r'.post = some (.query ⟨[], false⟩) ∧ r'.files = some [] := by
  have ha := oneHeader_arrives (L := L) (n := n) (k := b!"content-type") (v := b!"application/x-www-form-urlencoded")
    (body := body) (by rw [hn]; decide +kernel) (by decide +kernel) (by decide +kernel)
    (by rintro rfl; revert hn; decide +kernel) hne hI hc
  rw [← hE] at ha
  obtain ⟨r0, r', h1, h2, h3, h4⟩ := C77_other ha (by simp) h0 ⟨_, rfl, by show (body.length : Int) ≤ 5 * 2 ^ 20; omega⟩ hld
  obtain ⟨u, hu⟩ : ∃ u, E.C.decode (charsetAfter {} []).defaultCharset (oneHeader n b!"application/x-www-form-urlencoded" body).body = .ok u := by
    rw [hE]
    exact ⟨_, latin_decode body⟩
  obtain ⟨g1, g2, g3, g4, _⟩ := h3 u hu
  exact ⟨r0, r', h1, g1, g2, g3, g4⟩

/-- An instance: `content-type`, as HTTP/2 gateways write it. -/
example (L : Lawful ρ) (E : Env ρ σ F) (hE : E.C = pyCodecs) (p : ρ) (hI : L.Inv p)
    (hc : L.content p = (oneHeader b!"content-type" b!"application/x-www-form-urlencoded" b!"a=1").text) (w w1 : σ)
    (H : HandlerOps ρ σ F) (hld : E.load w = (.ok H, w1)) :=
  C136_type_refuted L E hE b!"content-type" (by decide +kernel) (by decide) b!"a=1" (by decide) (by decide) p hI hc w w1 H hld

/-- A request with `host: a.b`. -/
def lowerHost : Message where
  method := b!"GET"
  path := b!"/"
  proto := b!"HTTP/1.1"
  headers := [(b!"host", b!"a.b")]

example (L : Lawful ρ) (E : Env ρ σ F) (p : ρ) (hI : L.Inv p) (hc : L.content p = lowerHost.text) (w : σ) :
    (parseRequest E {} (freshReq p) w).1 = .error .noHostFound :=
  C136_host_refuted L E {} (by decide) (freshReq p) rfl p rfl hI _
    { method := by decide +kernel
      proto := by decide +kernel
      scheme := by simp [lowerHost]
      path := by decide +kernel
      slash := ⟨[], rfl, by decide⟩
      query := by simp [lowerHost]
      names := by decide +kernel
      values := by
        intro q hq
        simp only [lowerHost, List.mem_cons, List.not_mem_nil, or_false] at hq
        subst hq
        have h1 : ∀ c ∈ (b!"a.b" : Bytes), Visible c := by decide +kernel
        exact ⟨fun c hc => .inl (h1 c hc), fun c hc => h1 c (hc.elim List.mem_of_mem_head? List.mem_of_getLast?)⟩
      some := by simp [lowerHost] }
    hc rfl (by decide) w

/-- Lower case for all names but the three that are looked at. -/
def otherLower (n : Bytes) : Bytes :=
  if Py.lower n ∈ [b!"host", b!"content-type", b!"content-length"] then n else Py.lower n

theorem otherLower_recased : Recased otherLower := by
  have key : ∀ k : Bytes, Py.lower k ∈ ([b!"host", b!"content-type", b!"content-length"] : List Bytes) →
      ∀ n, otherLower n = k ↔ n = k := by
    intro k hk n
    unfold otherLower
    by_cases h : Py.lower n ∈ ([b!"host", b!"content-type", b!"content-length"] : List Bytes)
    · rw [if_pos h]
    · rw [if_neg h]
      constructor
      · rintro rfl
        rw [lower_lower] at hk
        exact absurd hk h
      · rintro rfl
        exact absurd hk h
  refine ⟨fun n => ?_, key _ (by decide +kernel), key _ (by decide +kernel), key _ (by decide +kernel)⟩
  unfold otherLower
  split
  · rfl
  · exact lower_lower n

example (L : Lawful ρ) (E : Env ρ σ F) (hE : E.C = pyCodecs) (p p' : ρ) (hI : L.Inv p) (hI' : L.Inv p')
    (hc : L.content p = (oneHeader b!"X-Y" b!"z" b!"a").text) (hc' : L.content p' = (oneHeader b!"x-y" b!"z" b!"a").text) :=
  C136_partial (E := E) (S := {}) (p' := p') (by
    rw [hE]
    exact oneHeader_arrives (n := b!"X-Y") (k := b!"x-y") (v := b!"z") (body := b!"a") (by decide +kernel)
      (by decide +kernel) (by decide +kernel) (by decide) (by decide) hI hc) otherLower_recased hI'
    (hc'.trans (by decide +kernel))

end

/-! ### Chunked bodies -/

namespace Spec

/-- `text` is `content` in chunks, as `Transfer-Encoding: chunked` sends it (RFC 7230, 4.1, without extensions and
trailers). -/
inductive Chunked : (content text : Bytes) → Prop where
  | last : Chunked [] b!"0\r\n\r\n"
  | chunk {d sz c t} : d ≠ [] → Numeral 16 HexDigit sz d.length → Chunked c t →
      Chunked (d ++ c) (sz ++ b!"\r\n" ++ d ++ b!"\r\n" ++ t)

end Spec

theorem Spec.Chunked.longer {c t : Bytes} (h : Chunked c t) : c.length + 5 ≤ t.length := by
  induction h with
  | last => decide
  | chunk _ _ _ ih => simp only [List.length_append] at ih ⊢; omega

section
variable {ρ σ F : Type} [Producer ρ]

/-- What is true of C137: whatever `Transfer-Encoding` says, `body()` is the text of the bytes after the header, as they
are. -/
theorem C137_raw_partial {L : Lawful ρ} {E : Env ρ σ F} {p : ρ} {m : Message} {host port : Bytes} {type : Option Bytes}
    {ps : List (Bytes × Bytes)} {qs : List (UStr × UStr)} (hE : E.C = pyCodecs)
    (h : Arrives L pyCodecs {} p m host port type ps qs)
    (ht : type.map Py.lower ≠ some b!"application/x-www-form-urlencoded" ∧
      type.map Py.lower ≠ some b!"multipart/form-data") (hps : param ps b!"charset" = none) (hb : m.body ≠ [])
    (hl : m.body.length ≤ 5 * 2 ^ 20) {w w1 : σ} {H : HandlerOps ρ σ F} (hld : E.load w = (.ok H, w1)) :
    ∃ r0 r' : Req ρ σ F, Req.new E.C {} p = .ok r0 ∧ parseRequest E {} r0 w = (.ok (), {}, r', w1) ∧
      ∃ r2, body E {} r' = (.ok (.u (Py.toU m.body)), {}, r2) := by
  rw [← hE] at h
  obtain ⟨r0, r', h1, h2, h3, h4⟩ := C77_other h ht hb
    ⟨_, rfl, by show (m.body.length : Int) ≤ 5 * 2 ^ 20; omega⟩ hld
  have hS : charsetAfter {} ps = {} := by
    unfold charsetAfter
    rw [hps]
  rw [hS] at h3
  obtain ⟨g1, g2, g3, g4, g5⟩ := h3 _ (by rw [hE]; exact latin_decode _)
  exact ⟨r0, r', h1, g1, g5 {}⟩

/-- **C137 is false of the code, for every content and every way to cut it into chunks**: a body sent with
`Transfer-Encoding: chunked` is handed out with the sizes of the chunks, so it is never the content. -/
theorem C137_refuted (L : Lawful ρ) (E : Env ρ σ F) (hE : E.C = pyCodecs) (content text : Bytes)
    (hch : Chunked content text) (hl : text.length ≤ 5 * 2 ^ 20) (p : ρ) (hI : L.Inv p)
    (hc : L.content p = (oneHeader b!"Transfer-Encoding" b!"chunked" text).text) (w w1 : σ) (H : HandlerOps ρ σ F)
    (hld : E.load w = (.ok H, w1)) :
    ∃ r0 r' : Req ρ σ F, Req.new E.C {} p = .ok r0 ∧ parseRequest E {} r0 w = (.ok (), {}, r', w1) ∧
      ∃ v r2, body E {} r' = (.ok v, {}, r2) ∧ v ≠ .b content ∧ v ≠ .u (Py.toU content) := by
  have hlen := hch.longer
  obtain ⟨r0, r', h1, h2, r2, h3⟩ := C137_raw_partial (E := E) (m := oneHeader b!"Transfer-Encoding" b!"chunked" text) hE
    (oneHeader_arrives (k := b!"Transfer-Encoding") rfl (by decide +kernel) (by decide +kernel) (by decide) (by decide) hI hc)
    (by simp) (by rfl) (by
      show text ≠ []
      rintro rfl
      simp at hlen) hl hld
  refine ⟨r0, r', h1, h2, _, r2, h3, by simp, ?_⟩
  intro he
  have e2 : Py.toU text = Py.toU content := by injection he
  have := congrArg List.length e2
  simp only [Py.toU, List.length_map] at this
  omega

/-- An instance: `Wikipedia` in two chunks. -/
example (L : Lawful ρ) (E : Env ρ σ F) (hE : E.C = pyCodecs) (p : ρ) (hI : L.Inv p)
    (hc : L.content p = (oneHeader b!"Transfer-Encoding" b!"chunked" b!"4\r\nWiki\r\n5\r\npedia\r\n0\r\n\r\n").text)
    (w w1 : σ) (H : HandlerOps ρ σ F) (hld : E.load w = (.ok H, w1)) :=
  C137_refuted L E hE b!"Wikipedia" b!"4\r\nWiki\r\n5\r\npedia\r\n0\r\n\r\n"
    (.chunk (d := b!"Wiki") (sz := b!"4") (by decide) (.one (v := 4) (.inl rfl))
      (.chunk (d := b!"pedia") (sz := b!"5") (by decide) (.one (v := 5) (.inl rfl)) .last)) (by decide) p hI hc w w1 H hld

/-- A multipart request without a header named exactly `Content-Length`: the form is empty and the body is not lost, it is
what `body()` gives. -/
theorem multipart_noLength {L : Lawful ρ} {E : Env ρ σ F} {S : Settings} {p : ρ} {m : Message}
    {host port type : Bytes} {ps : List (Bytes × Bytes)} {qs : List (UStr × UStr)}
    (h : Arrives L E.C S p m host port (some type) ps qs)
    (hty : b!"multipart/" <+: type) (hlo : Py.lower type = b!"multipart/form-data")
    {b : Bytes} (hb : param ps b!"boundary" = some b) (hbo : BoundaryOk (Py.toU b))
    (hcl : m.header b!"Content-Length" = none) (hne : m.body ≠ [])
    (hm : Allowed S.dataMaxMemory m.body.length) {u : UStr}
    (hu : E.C.decode (charsetAfter S ps).defaultCharset m.body = .ok u)
    {w w1 : σ} {H : HandlerOps ρ σ F} (hl : E.load w = (.ok H, w1)) (hc : H.count ≠ 0) :
    ∃ r0 r' : Req ρ σ F, Req.new E.C S p = .ok r0 ∧ parseRequest E S r0 w = (.ok (), charsetAfter S ps, r', w1) ∧
      HeadRead m host port (some type) qs r' ∧ r'.bodyParsed = true ∧ r'.post = some (.form []) ∧ r'.files = some [] := by
  have hS := charsetAfter_fields S ps
  generalize hS' : charsetAfter S ps = S' at *
  obtain ⟨r0, r, h1, h2, h3, h4, h5, h6, h7, h8, h9, h10⟩ := header_new (σ := σ) (F := F) h
  rw [hS'] at h2
  have hcodec := h.codec
  rw [hS'] at hcodec
  obtain ⟨s, a1, a2, a3⟩ := parseBodyStream_full (E := E) (S := S') (w := w1) (H := H)
    (r := { r with handlers := some H }) (k := 2) (by omega) h4 (by rw [h5]; exact hne)
  have a2 : L.sc s = m.body := a2.trans h5
  obtain ⟨hd, hi1, hi2⟩ := h3.info
  have hlast : ∀ k, k ≠ b!"Host" → (hd.get? k).bind List.getLast? = m.header k := by
    intro k hk
    rw [hi2, Message.header, ← Message.getLast_filter]
    by_cases hk2 : k ∈ m.headers.map Prod.fst
    · rw [if_neg (by rintro (⟨h, _⟩ | h); exacts [hk h, h hk2]), if_pos hk2]
    · rw [if_pos (.inr hk2), if_neg hk2]
  obtain ⟨htv, ct, hct, hmt⟩ := h.content
  obtain ⟨opts, o1, o2⟩ := parseHeader_media E.C (type := type)
    ⟨fun hm => (htv _ hm).2 (by decide), fun hm => (htv _ hm).2 (by decide), fun c hc => visible_ascii (htv c hc).1⟩ hmt
  have hct' := hlast b!"Content-Type" (by decide)
  have hcl' := hlast b!"Content-Length" (by decide)
  rw [hct] at hct'
  rw [hcl] at hcl'
  have hbp : Py.toU b ≠ [] := by
    obtain ⟨t, c, hh, _⟩ := hbo
    rcases hh with hh | hh <;> rw [hh] <;> simp
  have hcreate : MultiPart.create E.C H (some ct) none = .ok ⟨b, chunkSizeOf H, 0⟩ := by
    rw [create_ok_iff]
    refine ⟨_, opts, .b b, ?_, ?_, o1, by rw [o2, hb]; rfl, hbp, (validBoundary_iff _).2 hbo, ?_, ?_⟩
    · have : ∀ {ps s}, MediaText type ps s → b!"multipart/" <+: s := by
        intro ps s hmt
        induction hmt with
        | nil => exact hty
        | snoc _ _ _ _ ih => rw [List.append_assoc]; exact ih.trans (List.prefix_append _ _)
      exact List.isPrefixOf_iff_prefix.2 (this hmt)
    · have hmem : (b!"Content-Type", ct) ∈ m.headers := lastValue_mem hct
      simp only [Option.getD_some, Py.isAscii, List.all_eq_true, decide_eq_true_eq]
      intro c hc
      rcases (h.ok.values _ hmem).1 c hc with hv | rfl | rfl
      · exact visible_ascii hv
      · decide
      · decide
    · simp [lengthOf]
    · simp [lengthOf, PyStr.points, toU_ofNat]
  have hq : emptyQueryDict E.C S' = .ok () := by
    unfold emptyQueryDict
    rw [hcodec.decode [] (by simp), if_neg]
    rw [hS.1]
    cases hmf : S.maxFields with
    | none => simp
    | some l =>
      have := h.limit.one l hmf
      simp
      omega
  have htext : unicodeBoundary E.C (some ct) = false := by
    unfold unicodeBoundary
    simp only [Option.getD_some, o1, o2, hb]
    rfl
  have p1 : (⟨b, chunkSizeOf H, 0⟩ : MultiPart).parse E.C S' H E.fuel64 s w1 = (.ok ([], []), s, w1) := by
    unfold MultiPart.parse
    rw [if_pos rfl, hq]
  have hpr := parseRequest_body h2 h6 h7 hl
  rw [a3] at hpr
  have hby : parseByType E S' H { r with handlers := some H, stream := s } w1 = (.ok (), { r with
        handlers := some H, stream := s, post_ := some (.form []), files_ := some [] }, w1) := by
    unfold parseByType
    simp only [h3.contentType, Option.map_some, hlo]
    rw [if_pos trivial]
    unfold parseFileUpload
    simp only [hi1, Option.bind_some]
    rw [if_neg hc]
    simp only [hct', hcl', hcreate, htext, MultiPart.run, Bool.false_eq_true, if_false, p1]
  have hw : withinLimit S'.dataMaxMemory (L.sc s).length = true := by
    rw [hS.2.1, a2]; exact (withinLimit_iff _ _).2 hm
  obtain ⟨s2, _, _, hr⟩ := readBody_spec (k := 4) (by omega) S'
    { r with handlers := some H, stream := s, post_ := some (.form []), files_ := some [] } a1
  rcases hr with ⟨_, _, hr⟩ | ⟨hr, _⟩
  case inr => rw [hw] at hr; cases hr
  obtain ⟨f1, -⟩ := finishBody_fresh (C := E.C) (by exact h7) (by exact h8) hr
  rw [hby] at hpr
  simp only [a2] at f1 hpr
  rw [f1 u hu] at hpr
  exact ⟨r0, { r with
      handlers := some H, stream := s2, post_ := some (.form []), files_ := some []
      post := some (.form []), files := some []
      body_ := some (.u u), bodyParsed := true }, h1, hpr, ⟨h3.1, h3.2, h3.3, h3.4, h3.5, h3.6, h3.7, h3.8, h3.9⟩, rfl, rfl, rfl⟩

/-- A multipart request with the separator `B`, another header and any body. -/
def uploadWith (n v body : Bytes) : Message :=
  { oneHeader n v body with
    headers := [(b!"Host", b!"a.b"), (b!"Content-Type", b!"multipart/form-data; boundary=B"), (n, v)] }

theorem uploadWith_arrives {L : Lawful ρ} {n k v body : Bytes} (hn : Py.lower n = Py.lower k)
    (hk : ∀ c ∈ k, Visible c ∧ c ≠ 58) (hv : ∀ c ∈ v, Visible c) (h1 : n ≠ b!"Host") (h2 : n ≠ b!"Content-Type") {p : ρ}
    (hI : L.Inv p) (hc : L.content p = (uploadWith n v body).text) :
    Arrives L pyCodecs {} p (uploadWith n v body) b!"a.b" [] (some b!"multipart/form-data") [(b!"boundary", b!"B")] [] where
  size := by decide
  inv := hI
  ok :=
    { oneHeader_ok (n := n) (k := k) (v := v) (body := body) hn hk hv with
      names := by
        intro q hq
        simp only [uploadWith, List.mem_cons, List.not_mem_nil, or_false] at hq
        rcases hq with rfl | rfl | rfl
        · decide +kernel
        · decide +kernel
        · exact name_chars hn hk
      values := by
        intro q hq
        simp only [uploadWith, List.mem_cons, List.not_mem_nil, or_false] at hq
        rcases hq with rfl | rfl | rfl
        · have h1 : ∀ c ∈ (b!"a.b" : Bytes), Visible c := by decide +kernel
          exact ⟨fun c hc => .inl (h1 c hc), fun c hc => h1 c (hc.elim List.mem_of_mem_head? List.mem_of_getLast?)⟩
        · refine ⟨by decide +kernel, fun c hc => ?_⟩
          rcases hc with hc | hc
          · cases hc; decide
          · cases hc; decide
        · exact ⟨fun c hc => .inl (hv c hc), fun c hc => hv c (hc.elim List.mem_of_mem_head? List.mem_of_getLast?)⟩
      some := by simp [uploadWith] }
  text := hc
  host := ⟨b!"a.b", b!"a.b", .inr ⟨rfl, by simp [Message.header, lastValue, uploadWith, h1]⟩,
    ⟨.inl ⟨by decide, by unfold nameByte; decide +kernel⟩, by simp, .inl ⟨rfl, by decide +kernel⟩⟩,
    .inr ⟨rfl, fun x hx => by
      have := congrArg List.getLast? hx
      simp at this⟩⟩
  content := ⟨by decide +kernel, b!"multipart/form-data; boundary=B", by simp [Message.header, lastValue, uploadWith, h2],
    .snoc (s := b!"multipart/form-data") (n := b!"boundary") (v := b!"B") (t := b!"boundary=B")
      (ps := []) .nil (by decide +kernel) (by decide +kernel) (.inl ⟨by decide +kernel, rfl⟩)⟩
  codec0 := py_asciiCodec (e := .latin1) (by decide +kernel)
  codec := py_asciiCodec (e := .latin1) (by decide +kernel)
  query := ⟨[], .nil, .nil⟩
  limit := by intro l hl; cases hl; exact .inr ⟨by decide, by show ((numPieces [] : Nat) : Int) ≤ 4096; decide +kernel⟩

theorem uploadWith_empty {L : Lawful ρ} {E : Env ρ σ F} (hE : E.C = pyCodecs) {n k v body : Bytes}
    (hn : Py.lower n = Py.lower k) (hk : ∀ c ∈ k, Visible c ∧ c ≠ 58) (hv : ∀ c ∈ v, Visible c) (h1 : n ≠ b!"Host")
    (h2 : n ≠ b!"Content-Type") (h3 : n ≠ b!"Content-Length") {p : ρ} (hI : L.Inv p)
    (hc : L.content p = (uploadWith n v body).text) (h0 : body ≠ []) (hl : body.length ≤ 5 * 2 ^ 20) {w w1 : σ}
    {H : HandlerOps ρ σ F} (hld : E.load w = (.ok H, w1)) (hH : H.count ≠ 0) :
    ∃ r0 r' : Req ρ σ F, Req.new E.C {} p = .ok r0 ∧ parseRequest E {} r0 w = (.ok (), {}, r', w1) ∧
      r'.bodyParsed = true ∧ r'.post = some (.form []) ∧ r'.files = some [] := by
  have ha := uploadWith_arrives hn hk hv h1 h2 hI hc
  rw [← hE] at ha
  obtain ⟨r0, r', g1, g2, -, g3, g4, g5⟩ := multipart_noLength ha (List.prefix_append b!"multipart/" b!"form-data")
    (by decide +kernel) (b := b!"B") (by decide +kernel)
    ⟨[], 66, .inl (by decide), by decide, by decide, by decide, by decide⟩
    (by simp [Message.header, lastValue, uploadWith, h3]) h0
    ⟨_, rfl, by show (body.length : Int) ≤ 5 * 2 ^ 20; omega⟩ (by rw [hE]; exact latin_decode body) hld hH
  exact ⟨r0, r', g1, g2, g3, g4, g5⟩

/-- **C136 is false of the code**: of an upload whose length is under the name `Content-Length` in another case of the
letters nothing is parsed, and no error is reported.  Any body within the limit, any number as length, any upload handlers,
any stream, the default settings. -/
theorem C136_length_refuted (L : Lawful ρ) (E : Env ρ σ F) (hE : E.C = pyCodecs) (n : Bytes)
    (hn : Py.lower n = b!"content-length") (hne : n ≠ b!"Content-Length") (k : Nat) (v : Bytes) (hv : Numeral 10 DecDigit v k)
    (body : Bytes) (h0 : body ≠ []) (hl : body.length ≤ 5 * 2 ^ 20) (p : ρ) (hI : L.Inv p)
    (hc : L.content p = (uploadWith n v body).text) (w w1 : σ) (H : HandlerOps ρ σ F)
    (hld : E.load w = (.ok H, w1)) (hH : H.count ≠ 0) :
    ∃ r0 r' : Req ρ σ F, Req.new E.C {} p = .ok r0 ∧ parseRequest E {} r0 w = (.ok (), {}, r', w1) ∧
      r'.bodyParsed = true ∧ r'.post = some (.form []) ∧ r'.files = some [] := by
  refine uploadWith_empty hE (k := b!"content-length") (by rw [hn]; decide +kernel) (by decide +kernel) ?_
    (by rintro rfl; revert hn; decide +kernel) (by rintro rfl; revert hn; decide +kernel) hne hI hc h0 hl hld hH
  have hd : ∀ c v, DecDigit c v → Visible c := by
    intro c v h
    have := List.mem_of_getElem? h
    have key : ∀ c ∈ (b!"0123456789" : Bytes), Visible c := by decide +kernel
    exact key c this
  clear hc hld
  induction hv with
  | one h => intro c hc; rw [List.mem_singleton.1 hc]; exact hd _ _ h
  | more _ h ih =>
    intro c hc
    rcases List.mem_append.1 hc with hc | hc
    · exact ih c hc
    · rw [List.mem_singleton.1 hc]; exact hd _ _ h

/-- **C137 is false of the code, for every upload sent in chunks** (which has no `Content-Length`): `POST` and `FILES` are
empty and no error is reported, whatever the form was. -/
theorem C137_upload_refuted (L : Lawful ρ) (E : Env ρ σ F) (hE : E.C = pyCodecs) (content text : Bytes)
    (hch : Chunked content text) (hl : text.length ≤ 5 * 2 ^ 20) (p : ρ) (hI : L.Inv p)
    (hc : L.content p = (uploadWith b!"Transfer-Encoding" b!"chunked" text).text) (w w1 : σ) (H : HandlerOps ρ σ F)
    (hld : E.load w = (.ok H, w1)) (hH : H.count ≠ 0) :
    ∃ r0 r' : Req ρ σ F, Req.new E.C {} p = .ok r0 ∧ parseRequest E {} r0 w = (.ok (), {}, r', w1) ∧
      r'.bodyParsed = true ∧ r'.post = some (.form []) ∧ r'.files = some [] := by
  have hlen := hch.longer
  exact uploadWith_empty hE (k := b!"Transfer-Encoding") rfl (by decide +kernel) (by decide +kernel) (by decide) (by decide)
    (by decide) hI hc (by rintro rfl; simp at hlen) hl hld hH

/-- One field, `a` with the value `1`, under `content-length`, and in one chunk. -/
example (L : Lawful ρ) (E : Env ρ σ F) (hE : E.C = pyCodecs) (p : ρ) (hI : L.Inv p)
    (hc : L.content p = (uploadWith b!"content-length" b!"59"
      b!"--B\r\nContent-Disposition: form-data; name=\"a\"\r\n\r\n1\r\n--B--\r\n").text)
    (w w1 : σ) (H : HandlerOps ρ σ F) (hld : E.load w = (.ok H, w1)) (hH : H.count ≠ 0) :=
  C136_length_refuted L E hE b!"content-length" (by decide +kernel) (by decide) 59 b!"59"
    (.more (.one (v := 5) rfl) (v := 9) rfl) _ (by decide) (by decide) p hI hc w w1 H hld hH

example (L : Lawful ρ) (E : Env ρ σ F) (hE : E.C = pyCodecs) (p : ρ) (hI : L.Inv p)
    (hc : L.content p = (uploadWith b!"Transfer-Encoding" b!"chunked"
      (b!"3b\r\n" ++ b!"--B\r\nContent-Disposition: form-data; name=\"a\"\r\n\r\n1\r\n--B--\r\n" ++
        b!"\r\n0\r\n\r\n")).text)
    (w w1 : σ) (H : HandlerOps ρ σ F) (hld : E.load w = (.ok H, w1)) (hH : H.count ≠ 0) :=
  C137_upload_refuted L E hE _ _
    (.chunk (sz := b!"3b") (d := b!"--B\r\nContent-Disposition: form-data; name=\"a\"\r\n\r\n1\r\n--B--\r\n") (by decide)
      (.more (n := 3) (v := 11) (.one (Or.inl rfl)) (Or.inl rfl)) .last) (by decide) p hI
    (hc.trans (by decide +kernel)) w w1 H hld hH

end

end Verif
