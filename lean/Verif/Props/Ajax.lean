import Verif.Props.RequestMore
/-!
# C122: `is_ajax()`
-/

namespace Verif
open Spec
variable {ρ σ F : Type} [Producer ρ]

/-- **C122**, what the code does.  After the header of a well-formed request has been parsed, `is_ajax()` says whether a
header *named* `XMLHttpRequest` was sent, with whatever value.  (Partial: a browser or a library says
`X-Requested-With: XMLHttpRequest`; that is not looked at.) -/
theorem C122_partial {L : Lawful ρ} {E : Env ρ σ F} {S : Settings} {p : ρ} {m : Message} {host port : Bytes}
    {type : Option Bytes} {ps : List (Bytes × Bytes)} {qs : List (UStr × UStr)}
    (h : Arrives L E.C S p m host port type ps qs) :
    ∃ r0 r : Req ρ σ F, Req.new E.C S p = .ok r0 ∧ parseRequestHeader E S r0 = (.ok (), charsetAfter S ps, r) ∧
      r.isAjax = .ok (decide (b!"XMLHttpRequest" ∈ m.headers.map Prod.fst)) := by
  obtain ⟨r0, r, h1, h2, h3⟩ := C76_header (E := E) h
  obtain ⟨hd, i1, i2⟩ := h3.info
  refine ⟨r0, r, h1, h2, ?_⟩
  unfold Req.isAjax
  rw [i1]
  simp only [i2]
  by_cases hk : b!"XMLHttpRequest" ∈ m.headers.map Prod.fst
  · rw [if_neg (by rintro (⟨h, _⟩ | h); exacts [absurd h (by decide), h hk])]
    simp only [Option.isSome_some, Except.ok.injEq]
    exact (decide_eq_true hk).symm
  · rw [if_pos (.inr hk)]
    simp only [Option.isSome_none, Except.ok.injEq]
    exact (decide_eq_false hk).symm

example (cs : List Bytes) (body : Bytes) (h : cs.flatten = (noteMessage body).text) :=
  C122_partial (E := namedEnv Source pyCodecs [] goodOs sampleModules defaultHandlers 0) (noteMessage_arrives cs body h)

/-- **C122 is false of every such request**: without a header of the name `XMLHttpRequest`, `is_ajax()` is false though the request
says `X-Requested-With: XMLHttpRequest`; with one it is true though it does not say so. -/
theorem C122_all_refuted {L : Lawful ρ} {E : Env ρ σ F} {S : Settings} {p : ρ} {m : Message} {host port : Bytes}
    {type : Option Bytes} {ps : List (Bytes × Bytes)} {qs : List (UStr × UStr)}
    (h : Arrives L E.C S p m host port type ps qs)
    (hx : b!"XMLHttpRequest" ∈ m.headers.map Prod.fst ↔ (b!"X-Requested-With", b!"XMLHttpRequest") ∉ m.headers) :
    ∃ r0 r : Req ρ σ F, Req.new E.C S p = .ok r0 ∧ parseRequestHeader E S r0 = (.ok (), charsetAfter S ps, r) ∧
      r.isAjax ≠ .ok (decide ((b!"X-Requested-With", b!"XMLHttpRequest") ∈ m.headers)) := by
  obtain ⟨r0, r, h1, h2, h3⟩ := C122_partial h
  refine ⟨r0, r, h1, h2, ?_⟩
  rw [h3]
  intro hc
  simp only [Except.ok.injEq, decide_eq_decide] at hc
  by_cases hm : (b!"X-Requested-With", b!"XMLHttpRequest") ∈ m.headers
  · exact hx.1 (hc.2 hm) hm
  · exact hm (hc.1 (hx.2 hm))

/-- A request of a script. -/
def ajaxMessage (body : Bytes) : Message where
  method := b!"POST"
  scheme := b!"http"
  authority := b!"h"
  path := b!"/"
  proto := b!"HTTP/1.1"
  headers := [(b!"Content-Type", b!"text/plain"), (b!"X-Requested-With", b!"XMLHttpRequest")]
  body := body

theorem ajaxMessage_arrives (cs : List Bytes) (body : Bytes) (h : cs.flatten = (ajaxMessage body).text) :
    Arrives Source.lawful pyCodecs {} ⟨cs⟩ (ajaxMessage body) b!"h" [] (some b!"text/plain") [] [] where
  size := by decide
  inv := trivial
  ok :=
    { method := by simp only [ajaxMessage]; decide +kernel
      proto := by simp only [ajaxMessage]; decide +kernel
      scheme := by simp only [ajaxMessage]; decide +kernel
      path := by simp only [ajaxMessage]; decide +kernel
      slash := ⟨[], rfl, by decide⟩
      query := by simp [ajaxMessage]
      names := by simp only [ajaxMessage]; decide +kernel
      values := by
        have : ∀ p ∈ [(b!"Content-Type", b!"text/plain"), (b!"X-Requested-With", b!"XMLHttpRequest")], (∀ c ∈ p.2, Visible c ∨ c = 32 ∨ c = 9) ∧
          (∀ c, p.2.head? = some c → Visible c) ∧ (∀ c, p.2.getLast? = some c → Visible c) := by decide +kernel
        intro p hp
        obtain ⟨h1, h2, h3⟩ := this p hp
        exact ⟨h1, fun c hc => hc.elim (h2 c) (h3 c)⟩
      some := by simp [ajaxMessage] }
  text := h
  host := ⟨b!"h", b!"h", .inl ⟨by simp [ajaxMessage], rfl⟩,
    ⟨.inl ⟨by decide, by unfold nameByte; decide +kernel⟩, by simp, .inl ⟨rfl, rfl⟩⟩, .inr ⟨rfl, fun x hx => by
        have := congrArg List.getLast? hx
        simp at this⟩⟩
  content := ⟨by decide +kernel, b!"text/plain",
    by simp only [Message.header, ajaxMessage]; decide +kernel, .nil⟩
  codec0 := py_asciiCodec (e := .latin1) (by decide +kernel)
  codec := py_asciiCodec (e := .latin1) (by decide +kernel)
  query := ⟨[], .nil, .nil⟩
  limit := by intro l hl; cases hl; exact .inr ⟨by decide, by simp only [ajaxMessage]; decide +kernel⟩


example (cs : List Bytes) (body : Bytes) (h : cs.flatten = (ajaxMessage body).text) :=
  C122_all_refuted (E := namedEnv Source pyCodecs [] goodOs sampleModules defaultHandlers 0) (ajaxMessage_arrives cs body h)
    (by simp only [ajaxMessage]; decide)

/-- The request of a script in a browser. -/
def ajaxRequest : Bytes := b!"GET http://h/ HTTP/1.1\r\nX-Requested-With: XMLHttpRequest\r\n\r\n"

/-- One with the header that the code looks for. -/
def oddAjax : Bytes := b!"GET http://h/ HTTP/1.1\r\nXMLHttpRequest: no\r\n\r\n"

/-- What `is_ajax()` says about a request once its header is parsed. -/
def ajaxSays (sent : Bytes) : Option Bool :=
  (Req.new pyCodecs {} (⟨[sent]⟩ : Source)).toOption.bind (fun r : Req Source BWorld Uploaded =>
    match parseRequestHeader (namedEnv Source pyCodecs [] goodOs sampleModules defaultHandlers 0) {} r with
    | (.ok (), _, r) => r.isAjax.toOption
    | _ => none)

/-- **C122 is false of the code**: a request that says `X-Requested-With: XMLHttpRequest` is not one for `is_ajax()`,
and one with the header `XMLHttpRequest: no` is. -/
theorem C122_refuted : ajaxSays ajaxRequest = some false ∧ ajaxSays oddAjax = some true := by
  constructor <;> decide +kernel

end Verif
