import Verif.Props.HeaderCase
/-!
# Headers given more than once (C138) and ambiguous requests (C139)
-/

namespace Verif
open Spec

namespace Spec

/-- The same request with more headers in front. -/
def Message.before (extra : List (Bytes × Bytes)) (m : Message) : Message := { m with headers := extra ++ m.headers }

/-- Header fields as `Message.Ok` wants them. -/
def FieldsOk (hs : List (Bytes × Bytes)) : Prop :=
  ∀ p ∈ hs, (∀ c ∈ p.1, Visible c ∧ c ≠ 58) ∧ (∀ c ∈ p.2, Visible c ∨ c = 32 ∨ c = 9) ∧
    ∀ c, p.2.head? = some c ∨ p.2.getLast? = some c → Visible c

/-- Two different values are given under the same name. -/
def Message.Conflict (m : Message) (k : Bytes) : Prop :=
  ∃ i j : Nat, ∃ v1 v2, i < j ∧ m.headers[i]? = some (k, v1) ∧ m.headers[j]? = some (k, v2) ∧ v1 ≠ v2

/-- A length and a transfer encoding are given. -/
def Message.TwoFramings (m : Message) : Prop :=
  (∃ l, (b!"Content-Length", l) ∈ m.headers) ∧ ∃ t, (b!"Transfer-Encoding", t) ∈ m.headers

/-- A request that two readers may understand in different ways (RFC 7230, 3.3.3 and 5.4): two hosts, two lengths, or a
length and a transfer encoding. -/
def Ambiguous (m : Message) : Prop := m.Conflict b!"Host" ∨ m.Conflict b!"Content-Length" ∨ m.TwoFramings

end Spec

section
variable {ρ σ F : Type} [Producer ρ]

theorem header_before (extra : List (Bytes × Bytes)) (m : Message) (k : Bytes) :
    (m.before extra).header k = (m.header k).orElse (fun _ => lastValue extra k) := by
  unfold Message.header Message.before lastValue
  rw [List.reverse_append, List.find?_append]
  cases m.headers.reverse.find? (fun p => decide (p.1 = k)) <;> rfl

/-- Requests with more headers in front arrive as the same request, if the ones that count are given again. -/
theorem before_arrives {L : Lawful ρ} {C : Codecs} {S : Settings} {p p' : ρ} {m : Message} {host port : Bytes}
    {type : Option Bytes} {ps : List (Bytes × Bytes)} {qs : List (UStr × UStr)}
    (h : Arrives L C S p m host port type ps qs) (extra : List (Bytes × Bytes)) (he : FieldsOk extra)
    (ht : type = none → ∀ q ∈ extra, q.1 ≠ b!"Content-Type") (hI : L.Inv p')
    (hc : L.content p' = (m.before extra).text) :
    Arrives L C S p' (m.before extra) host port type ps qs where
  size := h.size
  inv := hI
  ok :=
    { h.ok with
      names := by
        intro q hq
        rcases List.mem_append.1 hq with hq | hq
        · exact (he q hq).1
        · exact h.ok.names q hq
      values := by
        intro q hq
        rcases List.mem_append.1 hq with hq | hq
        · exact (he q hq).2
        · exact h.ok.values q hq
      some := by
        intro e
        exact h.ok.some (List.append_eq_nil_iff.1 e).2 }
  text := hc
  host := by
    obtain ⟨t, d, h1, h2, h3⟩ := h.host
    refine ⟨t, d, ?_, h2, h3⟩
    rcases h1 with h1 | ⟨h1, h1'⟩
    · exact .inl h1
    · exact .inr ⟨h1, by rw [header_before, h1']; rfl⟩
  content := by
    have hct := h.content
    cases type with
    | none =>
      refine ⟨?_, hct.2⟩
      rw [header_before, hct.1]
      exact header_none (m := { m with headers := extra }) (ht rfl)
    | some t =>
      obtain ⟨h1, s, h2, h3⟩ := hct
      exact ⟨h1, s, by rw [header_before, h2]; rfl, h3⟩
  codec0 := h.codec0
  codec := h.codec
  query := h.query
  limit := h.limit

/-- What is asked of the port leaves one number. -/
theorem portIs_unique {scheme port : Bytes} {q1 q2 : Port} (c1 : PortIs scheme port q1) (c2 : PortIs scheme port q2) :
    q1 = q2 := by
  unfold PortIs at c1 c2
  by_cases h0 : port = []
  · by_cases hs : Py.lower scheme = b!"https"
    · rw [c1.2.1 h0 hs, c2.2.1 h0 hs]
    · by_cases hp : Py.lower scheme = b!"http"
      · rw [c1.2.2.1 h0 hp, c2.2.2.1 h0 hp]
      · rw [c1.2.2.2 h0 hs hp, c2.2.2.2 h0 hs hp]
  · rw [c1.1 h0, c2.1 h0]

/-- **C138**: of several headers with the same name the last one counts.  Any well-formed headers put before those of a
request make no difference to its host, its content type, its length and the attributes of the request object, whatever
they are called and say, as long as the request itself has the header: a content type, if one of them is a content type, and
a length, if one of them is a length.  The request arrives as the request without them, so that all theorems about whole
requests apply. -/
theorem C138_last {L : Lawful ρ} {E : Env ρ σ F} {S : Settings} {p p' : ρ} {m : Message} {host port : Bytes}
    {type : Option Bytes} {ps : List (Bytes × Bytes)} {qs : List (UStr × UStr)}
    (h : Arrives L E.C S p m host port type ps qs) (extra : List (Bytes × Bytes)) (he : FieldsOk extra)
    (ht : type = none → ∀ q ∈ extra, q.1 ≠ b!"Content-Type") (hI : L.Inv p')
    (hc : L.content p' = (m.before extra).text) :
    Arrives L E.C S p' (m.before extra) host port type ps qs ∧ (m.before extra).body = m.body ∧
    (∀ k v, m.header k = some v → (m.before extra).header k = some v) ∧
    ∃ r1 r2 r1' r2' : Req ρ σ F, Req.new E.C S p = .ok r1 ∧ Req.new E.C S p' = .ok r2 ∧
      parseRequestHeader E S r1 = (.ok (), charsetAfter S ps, r1') ∧
      parseRequestHeader E S r2 = (.ok (), charsetAfter S ps, r2') ∧
      r1'.method = r2'.method ∧ r1'.scheme = r2'.scheme ∧ r1'.host = r2'.host ∧ r1'.port = r2'.port ∧
      r1'.path = r2'.path ∧ r1'.proto = r2'.proto ∧ r1'.get = r2'.get ∧ r1'.contentType = r2'.contentType := by
  have ha := before_arrives h extra he ht hI hc
  refine ⟨ha, rfl, fun k v hk => by rw [header_before, hk]; rfl, ?_⟩
  obtain ⟨r1, r1', a1, a2, a3⟩ := C76_header (σ := σ) (F := F) h
  obtain ⟨r2, r2', b1, b2, b3⟩ := C76_header (σ := σ) (F := F) ha
  obtain ⟨q1, e1, c1⟩ := a3.port
  obtain ⟨q2, e2, c2⟩ := b3.port
  exact ⟨r1, r2, r1', r2', a1, b1, a2, b2, a3.method.trans b3.method.symm, a3.scheme.trans b3.scheme.symm,
    a3.host.trans b3.host.symm, by rw [e1, e2, portIs_unique c1 c2], a3.path.trans b3.path.symm,
    a3.proto.trans b3.proto.symm, a3.get.trans b3.get.symm, a3.contentType.trans b3.contentType.symm⟩

/-- **C139 is false of the code, for every request without body and all three ways of being ambiguous**: with another host in
front of its headers, with two lengths, or with a length and a transfer encoding, it is accepted like before. -/
theorem C139_refuted {L : Lawful ρ} {E : Env ρ σ F} {S : Settings} {p : ρ} {m : Message} {host port : Bytes}
    {type : Option Bytes} {ps : List (Bytes × Bytes)} {qs : List (UStr × UStr)}
    (h : Arrives L E.C S p m host port type ps qs) (hb : m.body = []) {h2 : Bytes} (hh : m.header b!"Host" = some h2)
    {w w1 : σ} {H : HandlerOps ρ σ F} (hld : E.load w = (.ok H, w1)) (extra : List (Bytes × Bytes)) (he : FieldsOk extra)
    (hx : (∃ h1, h1 ≠ h2 ∧ extra = [(b!"Host", h1)]) ∨
      (∃ l1 l2, l1 ≠ l2 ∧ extra = [(b!"Content-Length", l1), (b!"Content-Length", l2)]) ∨
      (∃ l t, extra = [(b!"Content-Length", l), (b!"Transfer-Encoding", t)])) :
    Ambiguous (m.before extra) ∧
    ∀ p' : ρ, L.Inv p' → L.content p' = (m.before extra).text →
      ∃ r0 r' : Req ρ σ F, Req.new E.C S p' = .ok r0 ∧ parseRequest E S r0 w = (.ok (), charsetAfter S ps, r', w1) ∧
        r'.host = some host := by
  refine ⟨?_, ?_⟩
  · rcases hx with ⟨h1, hne, rfl⟩ | ⟨l1, l2, hne, rfl⟩ | ⟨l, t, rfl⟩
    · obtain ⟨i, hi⟩ := List.mem_iff_getElem?.1 (lastValue_mem hh)
      exact .inl ⟨0, i + 1, h1, h2, by omega, rfl, hi, hne⟩
    · exact .inr (.inl ⟨0, 1, l1, l2, by omega, rfl, rfl, hne⟩)
    · exact .inr (.inr ⟨⟨l, by simp [Message.before]⟩, ⟨t, by simp [Message.before]⟩⟩)
  · intro p' hI hc
    have ha := before_arrives h extra he (by
      intro _ q hq
      rcases hx with ⟨h1, hne, rfl⟩ | ⟨l1, l2, hne, rfl⟩ | ⟨l, t, rfl⟩ <;>
        simp only [List.mem_cons, List.not_mem_nil, or_false] at hq
      · subst hq; show (b!"Host" : Bytes) ≠ _; decide
      · rcases hq with rfl | rfl <;> (show (b!"Content-Length" : Bytes) ≠ _; decide)
      · rcases hq with rfl | rfl
        · show (b!"Content-Length" : Bytes) ≠ _; decide
        · show (b!"Transfer-Encoding" : Bytes) ≠ _; decide) hI hc
    obtain ⟨r0, r', g1, g2, g3, _⟩ := C77_empty (σ := σ) (F := F) ha hb hld
    exact ⟨r0, r', g1, g2, g3.host⟩

/-- Fields with plain values are as `Message.Ok` wants them. -/
theorem fieldsOk_plain {hs : List (Bytes × Bytes)} (h : ∀ q ∈ hs, (∀ c ∈ q.1, Visible c ∧ c ≠ 58) ∧ ∀ c ∈ q.2, Visible c) :
    FieldsOk hs := by
  intro q hq
  refine ⟨(h q hq).1, fun c hc => .inl ((h q hq).2 c hc), ?_⟩
  rintro c (hc | hc)
  · exact (h q hq).2 c (List.mem_of_head? hc)
  · exact (h q hq).2 c (List.mem_of_getLast? hc)

/-- `Host: evil` and `X-Y: q` before `Host: a.b` and `X-Y: z`. -/
example (L : Lawful ρ) (E : Env ρ σ F) (hE : E.C = pyCodecs) (p p' : ρ) (hI : L.Inv p) (hI' : L.Inv p')
    (hc : L.content p = (oneHeader b!"X-Y" b!"z" b!"a").text)
    (hc' : L.content p' = b!"POST / HTTP/1.1\r\nHost: evil\r\nX-Y: q\r\nHost: a.b\r\nX-Y: z\r\n\r\na") :=
  C138_last (E := E) (S := {}) (p' := p') (by
    rw [hE]
    exact oneHeader_arrives (n := b!"X-Y") (k := b!"x-y") (v := b!"z") (body := b!"a") (by decide +kernel)
      (by decide +kernel) (by decide +kernel) (by decide) (by decide) hI hc)
    [(b!"Host", b!"evil"), (b!"X-Y", b!"q")] (fieldsOk_plain (by decide +kernel)) (fun _ => by decide) hI'
    (hc'.trans (by decide +kernel))

/-- The same with `Host: evil` only, and nothing after the header. -/
example (L : Lawful ρ) (E : Env ρ σ F) (hE : E.C = pyCodecs) (p : ρ) (hI : L.Inv p)
    (hc : L.content p = (oneHeader b!"X-Y" b!"z" []).text) (w w1 : σ)
    (H : HandlerOps ρ σ F) (hld : E.load w = (.ok H, w1)) :=
  C139_refuted (E := E) (S := {}) (by
    rw [hE]
    exact oneHeader_arrives (n := b!"X-Y") (k := b!"x-y") (v := b!"z") (body := []) (by decide +kernel)
      (by decide +kernel) (by decide +kernel) (by decide) (by decide) hI hc) rfl (h2 := b!"a.b") (by decide +kernel) hld
    [(b!"Host", b!"evil")] (fieldsOk_plain (by decide +kernel)) (.inl ⟨_, by decide, rfl⟩)

/-- A request with two lengths, and one with a length and a transfer encoding. -/
example (L : Lawful ρ) (E : Env ρ σ F) (hE : E.C = pyCodecs) (p : ρ) (hI : L.Inv p)
    (hc : L.content p = (oneHeader b!"X-Y" b!"z" []).text) (w w1 : σ)
    (H : HandlerOps ρ σ F) (hld : E.load w = (.ok H, w1)) :=
  have ha : Arrives L E.C {} p (oneHeader b!"X-Y" b!"z" []) b!"a.b" [] none [] [] := by
    rw [hE]
    exact oneHeader_arrives (n := b!"X-Y") (k := b!"x-y") (v := b!"z") (body := []) (by decide +kernel)
      (by decide +kernel) (by decide +kernel) (by decide) (by decide) hI hc
  And.intro
    (C139_refuted (E := E) ha rfl (h2 := b!"a.b") (by decide +kernel) hld
      [(b!"Content-Length", b!"0"), (b!"Content-Length", b!"7")] (fieldsOk_plain (by decide +kernel))
      (.inr (.inl ⟨_, _, by decide, rfl⟩)))
    (C139_refuted (E := E) ha rfl (h2 := b!"a.b") (by decide +kernel) hld
      [(b!"Content-Length", b!"7"), (b!"Transfer-Encoding", b!"chunked")] (fieldsOk_plain (by decide +kernel))
      (.inr (.inr ⟨_, _, rfl⟩)))

end
end Verif
