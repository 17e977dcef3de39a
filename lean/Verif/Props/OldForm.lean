import Verif.Props.Again
import Verif.Props.Exact
/-!
# What a request object keeps when it is given another stream (C43)
-/

namespace Verif
open Spec

variable {ρ σ F : Type} [Producer ρ]
variable {L : Lawful ρ} {E : Env ρ σ F} {S : Settings} {p : ρ} {m : Message} {host port : Bytes}
  {type : Option Bytes} {ps : List (Bytes × Bytes)} {qs : List (UStr × UStr)}

/-- Whatever the object went through: after the assignment the header of the new request is read, and `POST`, `FILES` and
(without a charset) the stored body are the old ones. -/
theorem header_again (h : Arrives L E.C S p m host port type ps qs) (r : Req ρ σ F) :
    ∃ r1 r', Req.setStream E.C S p r = (.ok (), r1) ∧
      parseRequestHeader E S r1 = (.ok (), charsetAfter S ps, r') ∧ HeadRead m host port type qs r' ∧
      SK L 2 r'.stream ∧ L.sc r'.stream = m.body ∧ r'.headerParsed = true ∧ r'.bodyParsed = false ∧
      r'.post = r.post ∧ r'.files = r.files ∧ (param ps b!"charset" = none → r'.body_ = r.body_) := by
  obtain ⟨t, d, h1, h2, h3⟩ := h.host
  have hq := queryDict_none h.codec0 h.limit.one true
  have hs : ∃ r1, Req.setStream E.C S p r = (.ok (), r1) ∧ r1.headerParsed = false ∧ r1.bodyParsed = false ∧
      r1.info = some {} ∧ r1.stream = LazyStream.mk' p ∧ r1.post = r.post ∧ r1.files = r.files ∧ r1.body_ = r.body_ := by
    unfold Req.setStream Req.reInit
    simp only [hq]
    exact ⟨_, rfl, rfl, rfl, rfl, rfl, rfl, rfl, rfl⟩
  obtain ⟨r1, b1, b2, b3, b4, b5, b6, b7, b8⟩ := hs
  obtain ⟨r', a1, a2, a3, a4, a5, a6, _, a8⟩ := head_read L E S h.size r1 b2 b4 p b5 h.inv m h.ok h.text t d port host
    h1 h2 h3 type ps h.content h.codec qs h.query h.limit
  have hf := parseRequestHeader_frame E S r1
  rw [a1] at hf
  exact ⟨r1, r', b1, a1, a2, a3, a4, a5, a6.trans b3, hf.2.1.trans b6, hf.2.2.1.trans b7, fun hn => (a8 hn).trans b8⟩

/-- **C43 is false for every request without a body**: after `request.stream = s` and `parse()`, which reports success, the
header is the one of the new request, but `POST` and `FILES` are those of whatever the object held before; a new object has
empty ones. -/
theorem C43_empty_refuted (h : Arrives L E.C S p m host port type ps qs) (hb : m.body = []) (r : Req ρ σ F)
    {w w1 : σ} {H : HandlerOps ρ σ F} (hl : E.load w = (.ok H, w1)) :
    ∃ r0 r0' r1 r' : Req ρ σ F, Req.setStream E.C S p r = (.ok (), r1) ∧
      parseRequest E S r1 w = (.ok (), charsetAfter S ps, r', w1) ∧ HeadRead m host port type qs r' ∧
      r'.post = r.post ∧ r'.files = r.files ∧
      Req.new E.C S p = .ok r0 ∧ parseRequest E S r0 w = (.ok (), charsetAfter S ps, r0', w1) ∧
      r0'.post = some (.query ⟨[], true⟩) ∧ r0'.files = some [] := by
  obtain ⟨r0, r0', c1, c2, _, c4, c5⟩ := C77_empty h hb hl
  obtain ⟨r1, q, h1, h2, h3, h4, h5, h6, h7, h8, h9, _⟩ := header_again h r
  rw [hb] at h5
  obtain ⟨s1, e1, b1, b2, _⟩ := h4.read (by omega) 1
  have e1' : q.stream.read (some 1) = (.ok ((L.sc q.stream).take 1), s1) := e1
  refine ⟨r0, r0', r1, { q with handlers := some H, stream := s1, post_ := some (.query ⟨[], false⟩), files_ := some [] },
    h1, ?_, ⟨h3.1, h3.2, h3.3, h3.4, h3.5, h3.6, h3.7, h3.8, h3.9⟩, h8, h9, c1, c2, c4, c5⟩
  rw [parseRequest_body h2 h6 h7 hl]
  unfold parseBodyStream
  rw [e1', h5]
  simp only [List.take_nil, ↓reduceIte]
  rw [queryDict_none h.codec (by rw [(charsetAfter_fields S ps).1]; exact h.limit.one) false]

/-- Text that is ASCII is read alike from a byte string and from a `unicode` object. -/
theorem queryDict_text {C : Codecs} {S : Settings} (hC : AsciiCodec C S.defaultCharset) {b : Bytes} (ha : ∀ c ∈ b, c < 128)
    (mt : Bool) : queryDict C S (some (.u (Py.toU b))) mt = queryDict C S (some (.b b)) mt := by
  unfold queryDict queryText
  cases b with
  | nil => rfl
  | cons c b =>
    simp only [hC.decode _ ha, Py.toU, List.map_cons]

/-- **C43 is false for every form that comes after another one**: if the object holds the text of an urlencoded form, the
form of the next request (without a charset) is not looked at: `parse()` reports success, and `POST` and the body are the old
ones again. -/
theorem C43_form_refuted {t : Bytes} (h : Arrives L E.C S p m host port (some t) ps qs)
    (hn : param ps b!"charset" = none) (ht : Py.lower t = b!"application/x-www-form-urlencoded") (hb : m.body ≠ [])
    (r : Req ρ σ F) {old : Bytes} (ho : r.body_ = some (.u (Py.toU old))) {form : List (UStr × UStr)}
    (hf : Written E.C S.defaultCharset form old) (hk : Admits S.maxFields (numPieces (Py.toU old)))
    {w w1 : σ} {H : HandlerOps ρ σ F} (hl : E.load w = (.ok H, w1)) :
    ∃ r1 r' : Req ρ σ F, Req.setStream E.C S p r = (.ok (), r1) ∧
      parseRequest E S r1 w = (.ok (), S, r', w1) ∧ HeadRead m host port (some t) qs r' ∧ r'.bodyParsed = true ∧
      r'.post = some (.query ⟨form, false⟩) ∧ r'.files = some [] ∧ r'.body_ = some (.u (Py.toU old)) := by
  have hS : charsetAfter S ps = S := by unfold charsetAfter; rw [hn]
  obtain ⟨r1, q, h1, h2, h3, h4, h5, h6, h7, h8, h9, h10⟩ := header_again h r
  rw [hS] at h2
  have h10 := (h10 hn).trans ho
  obtain ⟨s, a1, a2, a3⟩ := parseBodyStream_full (E := E) (S := S) (w := w1) (H := H)
    (r := { q with handlers := some H }) (k := 2) (by omega) h4 (by rw [h5]; exact hb)
  have ht' : q.contentType = some (some b!"application/x-www-form-urlencoded") := by rw [h3.contentType, ← ht]; rfl
  have hq : queryDict E.C S (some (.u (Py.toU old))) false = .ok ⟨form, false⟩ := by
    rw [queryDict_text h.codec0 hf.ascii]
    exact queryDict_written h.codec0 hf hk false
  refine ⟨r1, { q with
      handlers := some H, stream := s, post_ := some (.query ⟨form, false⟩), files_ := some []
      post := some (.query ⟨form, false⟩), files := some [], body_ := some (.u (Py.toU old)), bodyParsed := true },
    h1, ?_, ⟨h3.1, h3.2, h3.3, h3.4, h3.5, h3.6, h3.7, h3.8, h3.9⟩, rfl, rfl, rfl, rfl⟩
  have hby : parseByType E S H { q with handlers := some H, stream := s } w1 = (.ok (), { q with
      handlers := some H, stream := s, post_ := some (.query ⟨form, false⟩), files_ := some [] }, w1) := by
    unfold parseByType
    simp only [ht', Option.some.injEq]
    rw [if_neg (by decide), if_pos trivial, ← ht',
      bodyCore_held (r := { q with handlers := some H, stream := s }) (v := .u (Py.toU old)) h7 h10]
    simp only [hq]
  rw [parseRequest_body h2 h6 h7 hl, a3, hby]
  simp only
  unfold finishBody
  rw [bodyCore_held (v := .u (Py.toU old)) (by exact h7) (by exact h10)]
  have hd : decodeBody E.C S (.u (Py.toU old)) = .ok (Py.toU old) := by
    unfold decodeBody
    have hall : (Py.toU old).all (· < 128) = true := by
      simp only [Py.toU, List.all_eq_true, List.mem_map, decide_eq_true_eq, forall_exists_index, and_imp,
        forall_apply_eq_imp_iff₂]
      exact fun c hc => hf.ascii c hc
    have hback : (Py.toU old).map UInt8.ofNat = old := by
      simp [Py.toU, Function.comp_def]
    simp only [hall, if_true, hback, h.codec0.decode _ hf.ascii]
  simp only [hd]

/-! ### The hypotheses are met -/

/-- An object that holds any form, and a request without a body. -/
example (cs : List Bytes) (h : cs.flatten = (noteMessage []).text) (old : PostDict) (E : Env Source σ F)
    (hE : E.C = pyCodecs) {w w1 : σ} {H : HandlerOps Source σ F} (hl : E.load w = (.ok H, w1)) :
    ∃ r1 r', Req.setStream E.C {} ⟨cs⟩ { freshReq ⟨[]⟩ with headerParsed := true, bodyParsed := true, post := some old } =
        (.ok (), r1) ∧
      (parseRequest E {} r1 w).1 = .ok () ∧ (parseRequest E {} r1 w).2.2.1 = r' ∧ r'.post = some old := by
  obtain ⟨_, _, r1, r', h1, h2, _, h4, _⟩ := C43_empty_refuted (E := E)
    (hE ▸ noteMessage_arrives cs [] h) rfl
    { freshReq ⟨[]⟩ with headerParsed := true, bodyParsed := true, post := some old } hl
  exact ⟨r1, r', h1, by rw [h2], by rw [h2], h4⟩

/-- A request with an urlencoded form. -/
def plainForm (body : Bytes) : Message :=
  { noteMessage body with headers := [(b!"Content-Type", b!"application/x-www-form-urlencoded")] }

theorem plainForm_arrives (cs : List Bytes) (body : Bytes) (h : cs.flatten = (plainForm body).text) :
    Arrives Source.lawful pyCodecs {} ⟨cs⟩ (plainForm body) b!"h" [] (some b!"application/x-www-form-urlencoded") [] [] where
  size := by decide
  inv := trivial
  ok :=
    { method := by simp only [plainForm, noteMessage]; decide +kernel
      proto := by simp only [plainForm, noteMessage]; decide +kernel
      scheme := by simp only [plainForm, noteMessage]; decide +kernel
      path := by simp only [plainForm, noteMessage]; decide +kernel
      slash := ⟨[], rfl, by decide⟩
      query := by simp [plainForm, noteMessage]
      names := by simp only [plainForm, noteMessage]; decide +kernel
      values := by
        have : ∀ p ∈ [(b!"Content-Type", b!"application/x-www-form-urlencoded")], (∀ c ∈ p.2, Visible c ∨ c = 32 ∨ c = 9) ∧
          (∀ c, p.2.head? = some c → Visible c) ∧ (∀ c, p.2.getLast? = some c → Visible c) := by decide +kernel
        intro p hp
        obtain ⟨h1, h2, h3⟩ := this p hp
        exact ⟨h1, fun c hc => hc.elim (h2 c) (h3 c)⟩
      some := by simp [plainForm] }
  text := h
  host := ⟨b!"h", b!"h", .inl ⟨by simp [plainForm, noteMessage], rfl⟩,
    ⟨.inl ⟨by decide, by unfold nameByte; decide +kernel⟩, by simp, .inl ⟨rfl, rfl⟩⟩, .inr ⟨rfl, fun x hx => by
        have := congrArg List.getLast? hx
        simp at this⟩⟩
  content := ⟨by decide +kernel, b!"application/x-www-form-urlencoded",
    by simp only [Message.header, plainForm]; decide +kernel, .nil⟩
  codec0 := py_asciiCodec (e := .latin1) (by decide +kernel)
  codec := py_asciiCodec (e := .latin1) (by decide +kernel)
  query := ⟨[], .nil, .nil⟩
  limit := by intro l hl; cases hl; exact .inr ⟨by decide, by simp only [plainForm, noteMessage]; decide +kernel⟩

theorem old_written : Written pyCodecs ({} : Settings).defaultCharset [(Py.toU b!"k", Py.toU b!"v w")] b!"k=v+w" :=
  ⟨[b!"k=v+w"],
    .cons (kb := b!"k") (vb := b!"v w") (kt := b!"k") (vt := b!"v+w") (formEnc_plain (by decide +kernel))
      (.lit 118 (by decide) (by decide) (.plus (formEnc_plain (by decide +kernel)))) rfl rfl .nil,
    .one _⟩

/-- The form `k=v+w` is held, and the form `b=2` arrives. -/
example (cs : List Bytes) (h : cs.flatten = (plainForm b!"b=2").text) (E : Env Source σ F)
    (hE : E.C = pyCodecs) {w w1 : σ} {H : HandlerOps Source σ F} (hl : E.load w = (.ok H, w1)) :
    ∃ r1 r', Req.setStream E.C {} ⟨cs⟩ { freshReq ⟨[]⟩ with body_ := some (.u (Py.toU b!"k=v+w")) } = (.ok (), r1) ∧
      (parseRequest E {} r1 w).1 = .ok () ∧ (parseRequest E {} r1 w).2.2.1 = r' ∧
      r'.post = some (.query ⟨[(Py.toU b!"k", Py.toU b!"v w")], false⟩) := by
  obtain ⟨r1, r', h1, h2, _, _, h4, _⟩ := C43_form_refuted (E := E) (hE ▸ plainForm_arrives cs b!"b=2" h) rfl
    (by decide +kernel) (by decide) { freshReq ⟨[]⟩ with body_ := some (.u (Py.toU b!"k=v+w")) }
    (old := b!"k=v+w") rfl (form := [(Py.toU b!"k", Py.toU b!"v w")]) (hE ▸ old_written)
    (by intro l hl; cases hl; exact .inr ⟨by decide, by decide +kernel⟩) hl
  exact ⟨r1, r', h1, by rw [h2], by rw [h2], h4⟩

end Verif
