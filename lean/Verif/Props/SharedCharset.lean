import Verif.Props.Exact
/-!
# Requests that share their settings (C45)
-/

namespace Verif
open Spec

variable {ρ σ F : Type} [Producer ρ]
variable {L : Lawful ρ} {E : Env ρ σ F} {S : Settings} {p1 p2 : ρ} {m1 m2 : Message}
  {host1 port1 host2 port2 : Bytes} {type1 type2 : Option Bytes} {ps1 ps2 : List (Bytes × Bytes)}
  {qs1 qs2 qs2' : List (UStr × UStr)} {cs : Bytes}

/-- A well-formed request leaves the settings with the charset it names. -/
theorem settings_after (h : Arrives L E.C S p1 m1 host1 port1 type1 ps1 qs1) :
    ∃ r1 : Req ρ σ F, Req.new E.C S p1 = .ok r1 ∧ ∀ w, (parseRequest E S r1 w).2.1 = charsetAfter S ps1 := by
  obtain ⟨r1, r, h1, h2, _⟩ := header_new (σ := σ) (F := F) h
  refine ⟨r1, h1, fun w => ?_⟩
  unfold parseRequest
  rw [h2]

/-- A request that names no charset is also well-formed with the charset another one has left behind. -/
theorem arrives_after (h1 : Arrives L E.C S p1 m1 host1 port1 type1 ps1 qs1) (hcs : param ps1 b!"charset" = some cs)
    (h2 : Arrives L E.C S p2 m2 host2 port2 type2 ps2 qs2) (hn : param ps2 b!"charset" = none)
    (hq : Written E.C cs qs2' m2.query) :
    charsetAfter S ps1 = { S with defaultCharset := cs } ∧ charsetAfter S ps2 = S ∧
    charsetAfter { S with defaultCharset := cs } ps2 = { S with defaultCharset := cs } ∧
    Arrives L E.C { S with defaultCharset := cs } p2 m2 host2 port2 type2 ps2 qs2' := by
  have e1 : charsetAfter S ps1 = { S with defaultCharset := cs } := by unfold charsetAfter; rw [hcs]
  have e2 : charsetAfter S ps2 = S := by unfold charsetAfter; rw [hn]
  have e3 : charsetAfter { S with defaultCharset := cs } ps2 = { S with defaultCharset := cs } := by
    unfold charsetAfter; rw [hn]
  have hc := h1.codec
  rw [e1] at hc
  exact ⟨e1, e2, e3, {
    size := h2.size, inv := h2.inv, ok := h2.ok, text := h2.text, host := h2.host, content := h2.content
    codec0 := hc, codec := by rw [e3]; exact hc, query := by rw [e3]; exact hq, limit := h2.limit }⟩

/-- **C45 is false of every request that names a charset**: a request without a charset that comes after it, with the same
settings, has its query string and its urlencoded form decoded with the charset of the first request; alone they are
decoded with the charset of the settings. -/
theorem C45_form_refuted (h1 : Arrives L E.C S p1 m1 host1 port1 type1 ps1 qs1) (hcs : param ps1 b!"charset" = some cs)
    {t : Bytes} (h2 : Arrives L E.C S p2 m2 host2 port2 (some t) ps2 qs2) (hn : param ps2 b!"charset" = none)
    (hq : Written E.C cs qs2' m2.query) (ht : Py.lower t = b!"application/x-www-form-urlencoded") (hb : m2.body ≠ [])
    {form form' : List (UStr × UStr)} (hf : Written E.C S.defaultCharset form m2.body) (hf' : Written E.C cs form' m2.body)
    (hm : Allowed S.dataMaxMemory m2.body.length) (hk : Admits S.maxFields (numPieces (Py.toU m2.body)))
    {w w1 : σ} {H : HandlerOps ρ σ F} (hl : E.load w = (.ok H, w1)) (w0 : σ) :
    ∃ r1 r2 r2' ra rb : Req ρ σ F, Req.new E.C S p1 = .ok r1 ∧
      -- alone
      Req.new E.C S p2 = .ok r2 ∧ parseRequest E S r2 w = (.ok (), S, ra, w1) ∧
      HeadRead m2 host2 port2 (some t) qs2 ra ∧ ra.post = some (.query ⟨form, false⟩) ∧
      -- after the first request
      Req.new E.C (parseRequest E S r1 w0).2.1 p2 = .ok r2' ∧
      (parseRequest E (parseRequest E S r1 w0).2.1 r2' w).1 = .ok () ∧
      (parseRequest E (parseRequest E S r1 w0).2.1 r2' w).2.2.1 = rb ∧
      HeadRead m2 host2 port2 (some t) qs2' rb ∧ rb.post = some (.query ⟨form', false⟩) := by
  obtain ⟨e1, e2, e3, h3⟩ := arrives_after h1 hcs h2 hn hq
  obtain ⟨r1, a1, a2⟩ := settings_after (σ := σ) (F := F) h1
  obtain ⟨r2, ra, b1, b2, b3, _, b5, _⟩ := C77_form h2 ht hb (by rw [e2]; exact hf) hm hk hl
  obtain ⟨r2', rb, c1, c2, c3, _, c5, _⟩ := C77_form h3 ht hb (by rw [e3]; exact hf') hm hk hl
  rw [e2] at b2
  refine ⟨r1, r2, r2', ra, rb, a1, b1, b2, b3, b5, ?_⟩
  rw [a2 w0, e1, c2]
  exact ⟨c1, rfl, rfl, c3, c5⟩

/-- **C45 is false of every request that names a charset**, for bodies of other types: the text of a later body is the
one in the charset of the first request. -/
theorem C45_text_refuted (h1 : Arrives L E.C S p1 m1 host1 port1 type1 ps1 qs1) (hcs : param ps1 b!"charset" = some cs)
    (h2 : Arrives L E.C S p2 m2 host2 port2 type2 ps2 qs2) (hn : param ps2 b!"charset" = none)
    (hq : Written E.C cs qs2' m2.query)
    (ht : type2.map Py.lower ≠ some b!"application/x-www-form-urlencoded" ∧
      type2.map Py.lower ≠ some b!"multipart/form-data") (hb : m2.body ≠ []) (hm : Allowed S.dataMaxMemory m2.body.length)
    {w w1 : σ} {H : HandlerOps ρ σ F} (hl : E.load w = (.ok H, w1)) (w0 : σ) :
    ∃ r1 r2 r2' ra rb : Req ρ σ F, Req.new E.C S p1 = .ok r1 ∧
      Req.new E.C S p2 = .ok r2 ∧ Req.new E.C (parseRequest E S r1 w0).2.1 p2 = .ok r2' ∧
      -- alone
      (∀ u, E.C.decode S.defaultCharset m2.body = .ok u → parseRequest E S r2 w = (.ok (), S, ra, w1) ∧
        ∀ S2, ∃ r, body E S2 ra = (.ok (.u u), S2, r)) ∧
      -- after the first request
      (∀ v, E.C.decode cs m2.body = .ok v →
        (parseRequest E (parseRequest E S r1 w0).2.1 r2' w).1 = .ok () ∧
        (parseRequest E (parseRequest E S r1 w0).2.1 r2' w).2.2.1 = rb ∧
        ∀ S2, ∃ r, body E S2 rb = (.ok (.u v), S2, r)) ∧
      (∀ e, E.C.decode cs m2.body = .error e →
        (parseRequest E (parseRequest E S r1 w0).2.1 r2' w).1 = .error e) := by
  obtain ⟨e1, e2, e3, h3⟩ := arrives_after h1 hcs h2 hn hq
  obtain ⟨r1, a1, a2⟩ := settings_after (σ := σ) (F := F) h1
  obtain ⟨r2, ra, b1, _, b3, _⟩ := C77_other h2 ht hb hm hl
  obtain ⟨r2', rb, c1, _, c3, c4⟩ := C77_other h3 ht hb hm hl
  rw [e2] at b3
  rw [e3] at c3 c4
  refine ⟨r1, r2, r2', ra, rb, a1, b1, by rw [a2 w0, e1]; exact c1,
    fun u hu => ⟨(b3 u hu).1, (b3 u hu).2.2.2.2⟩, fun v hv => ?_, fun e he => ?_⟩
  · rw [a2 w0, e1, (c3 v hv).1]
    exact ⟨rfl, rfl, (c3 v hv).2.2.2.2⟩
  · rw [a2 w0, e1, (c4 e he).1]

/-! ### The hypotheses are met -/

/-- The two bytes of an accented letter in UTF-8 are two letters in a note; after a request in UTF-8 they are one. -/
example (cs1 cs2 : List Bytes) (h1 : cs1.flatten = sampleMessage.text) (h2 : cs2.flatten = (noteMessage [195, 169]).text)
    (E : Env Source σ F) (hE : E.C = pyCodecs) {w w1 : σ} {H : HandlerOps Source σ F} (hl : E.load w = (.ok H, w1)) :
    ∃ r1 r2 r2' ra rb : Req Source σ F,
      Req.new E.C { maxFields := some 2, dataMaxMemory := some 5 } ⟨cs1⟩ = .ok r1 ∧
      Req.new E.C { maxFields := some 2, dataMaxMemory := some 5 } ⟨cs2⟩ = .ok r2 ∧
      Req.new E.C (parseRequest E { maxFields := some 2, dataMaxMemory := some 5 } r1 w).2.1 ⟨cs2⟩ = .ok r2' ∧
      parseRequest E { maxFields := some 2, dataMaxMemory := some 5 } r2 w =
        (.ok (), { maxFields := some 2, dataMaxMemory := some 5 }, ra, w1) ∧
      (∀ S2, ∃ r, body E S2 ra = (.ok (.u [195, 169]), S2, r)) ∧
      (parseRequest E (parseRequest E { maxFields := some 2, dataMaxMemory := some 5 } r1 w).2.1 r2' w).2.2.1 = rb ∧
      ∀ S2, ∃ r, body E S2 rb = (.ok (.u [233]), S2, r) := by
  have h := noteMessage_arrives cs2 [195, 169] h2
  have h2 : Arrives Source.lawful E.C { maxFields := some 2, dataMaxMemory := some 5 } ⟨cs2⟩ (noteMessage [195, 169]) b!"h" []
      (some b!"text/plain") [] [] := {
    size := by decide, inv := h.inv, ok := h.ok, text := h.text, host := h.host, content := h.content
    codec0 := hE ▸ h.codec0, codec := hE ▸ h.codec, query := hE ▸ h.query
    limit := by intro l hl; cases hl; exact .inr ⟨by decide, by simp only [noteMessage]; decide +kernel⟩ }
  obtain ⟨r1, r2, r2', ra, rb, a1, a2, a3, a4, a5, _⟩ := C45_text_refuted (E := E) (cs := b!"utf-8") (qs2' := [])
    (hE ▸ sampleMessage_arrives cs1 h1) (by decide +kernel) h2 rfl ⟨[], .nil, .nil⟩ (by decide +kernel) (by simp [noteMessage])
    (by simp [Allowed, noteMessage]) hl w
  obtain ⟨b1, b2⟩ := a4 [195, 169] (by rw [hE]; rfl)
  obtain ⟨_, c1, c2⟩ := a5 [233] (by rw [hE]; rfl)
  exact ⟨r1, r2, r2', ra, rb, a1, a2, a3, b1, b2, c1, c2⟩

end Verif
