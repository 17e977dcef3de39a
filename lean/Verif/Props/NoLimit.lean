import Verif.Props.Raised
import Verif.Props.Message
import Verif.Props.Meant
import Verif.Props.Failed
import Verif.Props.Again
/-!
# No limit on memory (C143)
-/

namespace Verif
open Spec

section
variable {ρ σ F : Type} [Producer ρ]

theorem readBody_nolimit {S : Settings} (hS : S.dataMaxMemory = none) (r : Req ρ σ F) :
    ∃ e r', readBody S r = (.error e, r') := by
  unfold readBody
  rcases r.stream.read (some 65536) with ⟨e | c, s⟩
  · exact ⟨_, _, rfl⟩
  · simp only [hS]
    unfold bodyLoop
    simp only [withinLimit, Option.any_none, Bool.false_eq_true, false_and, if_false]
    exact ⟨_, _, rfl⟩

theorem parseFileUpload_keeps_body (E : Env ρ σ F) (S : Settings) (H : HandlerOps ρ σ F) (r : Req ρ σ F) (w : σ) :
    (parseFileUpload E S H r w).2.1.bodyParsed = r.bodyParsed ∧ (parseFileUpload E S H r w).2.1.body_ = r.body_ := by
  unfold parseFileUpload
  split
  · exact ⟨rfl, rfl⟩
  · split
    · exact ⟨rfl, rfl⟩
    · simp only
      split
      · exact ⟨rfl, rfl⟩
      · exact ⟨rfl, rfl⟩

/-- Without a limit nothing that is read as a body is accepted. -/
theorem parseByType_nolimit {E : Env ρ σ F} {S : Settings} (hS : S.dataMaxMemory = none) (H : HandlerOps ρ σ F)
    (r : Req ρ σ F) (w : σ) (h1 : r.bodyParsed = false) (h2 : r.body_ = none) :
    (∃ e r' w', parseByType E S H r w = (.error e, r', w')) ∨
      ∃ r' w', parseByType E S H r w = (.ok (), r', w') ∧ r'.bodyParsed = false ∧ r'.body_ = none := by
  unfold parseByType
  cases r.contentType with
  | none => exact .inl ⟨_, _, _, rfl⟩
  | some ct =>
    simp only
    split
    · have hk := parseFileUpload_keeps_body E S H r w
      rcases hp : parseFileUpload E S H r w with ⟨e | x, r', w'⟩
      · left
        cases e <;> exact ⟨_, _, _, rfl⟩
      · rw [hp] at hk
        exact .inr ⟨_, _, rfl, hk.1.trans h1, hk.2.trans h2⟩
    · split
      · obtain ⟨e, r', he⟩ := readBody_nolimit hS r
        rw [bodyCore_fresh h1 h2, he]
        exact .inl ⟨_, _, _, rfl⟩
      · cases queryDict E.C S none false with
        | error e => exact .inl ⟨_, _, _, rfl⟩
        | ok q => exact .inr ⟨_, _, rfl, h1, h2⟩

/-- **C143 is false of the code for every body**: with `None` as `DATA_UPLOAD_MAX_MEMORY_SIZE`, which means that there is
no limit, every request that has a body is refused, whatever its type, its content and the handlers are. -/
theorem C143_none_refuted {L : Lawful ρ} {E : Env ρ σ F} {S : Settings} {p : ρ} {m : Message} {host port : Bytes}
    {type : Option Bytes} {ps : List (Bytes × Bytes)} {qs : List (UStr × UStr)}
    (h : Arrives L E.C S p m host port type ps qs) (hS : S.dataMaxMemory = none) (hne : m.body ≠ []) (w : σ) :
    ∃ (r0 r' : Req ρ σ F) (w' : σ) (e : Exc), Req.new E.C S p = .ok r0 ∧
      parseRequest E S r0 w = (.error e, charsetAfter S ps, r', w') ∧
      r'.post = r0.post ∧ r'.files = r0.files ∧ r'.bodyParsed = r0.bodyParsed := by
  obtain ⟨r0, r, h1, h2, h3, h4, h5, h6, h7, h8, h9, h10⟩ := header_new (σ := σ) (F := F) h
  have hS' : (charsetAfter S ps).dataMaxMemory = none := (charsetAfter_fields S ps).2.1.trans hS
  have key : ∃ e r' w', parseRequestBody E (charsetAfter S ps) r w = (.error e, r', w') := by
    unfold parseRequestBody
    rw [if_neg (by simp [h7])]
    rcases E.load w with ⟨e | H, w1⟩
    · exact ⟨_, _, _, rfl⟩
    · simp only
      rw [if_neg (by simp [h6])]
      obtain ⟨s, a1, a2, a3⟩ := parseBodyStream_full (E := E) (S := charsetAfter S ps) (w := w1) (H := H)
        (r := { r with handlers := some H }) (k := 2) (by omega) h4 (by rw [h5]; exact hne)
      rw [a3]
      rcases parseByType_nolimit (E := E) hS' H { r with handlers := some H, stream := s } w1 h7 h8 with
        ⟨e, r', w', hb⟩ | ⟨r', w', hb, k1, k2⟩
      · rw [hb]; exact ⟨_, _, _, rfl⟩
      · rw [hb]
        obtain ⟨e, r2, he⟩ := readBody_nolimit hS' r'
        simp only [finishBody, bodyCore_fresh k1 k2, he]
        exact ⟨_, _, _, rfl⟩
  obtain ⟨e, r', w', hb⟩ := key
  have hp : parseRequest E S r0 w = (.error e, charsetAfter S ps, r', w') := by
    unfold parseRequest
    rw [h2]
    simp only [hb]
  obtain ⟨k1, k2, k3⟩ := C144_partial E S r0 w hp
  exact ⟨r0, r', w', e, h1, hp, k1, k2, k3⟩

/-- **C143 is false of the code for every query string**: a request with more parameters in its query string than
`k`, `k` at least 1, is refused when `k` fields are allowed, but its header is accepted, with all the parameters, when
the setting is lower, namely 0. -/
theorem C143_zero_refuted {L : Lawful ρ} {E : Env ρ σ F} {S : Settings} {p : ρ} {m : Message} {host port : Bytes}
    {type : Option Bytes} {ps : List (Bytes × Bytes)} {qs : List (UStr × UStr)}
    (h : Arrives L E.C { S with maxFields := some 0 } p m host port type ps qs)
    (k : Nat) (hk : 1 ≤ k) (hq : k < numPieces (Py.toU m.query)) (w : σ) :
    (∃ r0 r' : Req ρ σ F, Req.new E.C { S with maxFields := some 0 } p = .ok r0 ∧
      parseRequestHeader E { S with maxFields := some 0 } r0 =
        (.ok (), charsetAfter { S with maxFields := some 0 } ps, r') ∧
      HeadRead m host port type qs r') ∧
    (∃ (r0 r' : Req ρ σ F) (S' : Settings), Req.new E.C { S with maxFields := some (k : Int) } p = .ok r0 ∧
      parseRequest E { S with maxFields := some (k : Int) } r0 w = (.error .tooManyFieldsSent, S', r', w)) := by
  obtain ⟨r0, r', h1, h2, h3, -⟩ := header_new (σ := σ) (F := F) h
  refine ⟨⟨r0, r', h1, h2, h3⟩, ?_⟩
  obtain ⟨t, d, a1, a2, a3⟩ := h.host
  generalize hT : ({ S with maxFields := some (k : Int) } : Settings) = T
  have hl : T.maxFields = some (k : Int) := by rw [← hT]
  have hd : T.defaultCharset = S.defaultCharset := by rw [← hT]
  have hcs : (charsetAfter T ps).defaultCharset =
      (charsetAfter { S with maxFields := some 0 } ps).defaultCharset := by
    rw [← hT]
    unfold charsetAfter
    split <;> rfl
  have hC : AsciiCodec E.C (charsetAfter T ps).defaultCharset := by rw [hcs]; exact h.codec
  have hC0 : AsciiCodec E.C T.defaultCharset := by rw [hd]; exact h.codec0
  have hnew : Req.new (σ := σ) (F := F) E.C T p = .ok (freshReq p) := by
    unfold Req.new Req.reInit
    simp only [queryDict_none hC0 (fun l e => by rw [hl] at e; cases e; exact .inr (by omega)) true]
    rfl
  obtain ⟨s', hd', g, po, b, f1, -⟩ := head_applied L E T (by rw [← hT]; exact h.size) (freshReq (σ := σ) (F := F) p) rfl p rfl
    h.inv m h.ok h.text t d port host a1 a2 a3 type ps h.content
  have hqne : m.reqLine.query ≠ [] := by
    show m.query ≠ []
    intro e
    rw [e] at hq
    have : numPieces (Py.toU []) = 1 := by decide
    omega
  have hmany : queryDict E.C (charsetAfter T ps) (some (.b m.reqLine.query)) false = .error .tooManyFieldsSent :=
    queryDict_many hC (fun c e => UInt8.lt_of_le_of_lt (h.ok.query c e).1.2 (by decide : (126 : UInt8) < 128)) hk
      (by rw [(charsetAfter_fields T ps).1]; exact hl) hq false
  have key : ∃ r1 : Req ρ σ F,
      parseRequestHeader E T (freshReq p) = (.error .tooManyFieldsSent, charsetAfter T ps, r1) := by
    rw [f1]
    unfold applyQuery
    simp only [freshReq, if_pos hqne, hmany]
    exact ⟨_, rfl⟩
  obtain ⟨r1, g1⟩ := key
  exact ⟨freshReq p, r1, _, hnew, by unfold parseRequest; rw [g1]⟩

end

/-- One byte of text, however the request is cut. -/
example (cs : List Bytes) (h : cs.flatten = (formMessage b!"x").text) :
    let S : Settings := { dataMaxMemory := none }
    let E : Env Source BWorld Uploaded :=
      ⟨pyCodecs, [], fun _ => (.ok (builtinOps Source goodOs 1), ⟨[.memory {}], []⟩), 1000⟩
    ∃ (r0 r' : Req Source BWorld Uploaded) (w' : BWorld) (e : Exc), Req.new E.C S ⟨cs⟩ = .ok r0 ∧
      parseRequest E S r0 ⟨[], []⟩ = (.error e, S, r', w') ∧
      r'.post = r0.post ∧ r'.files = r0.files ∧ r'.bodyParsed = r0.bodyParsed := by
  intro S E
  have a := formMessage_arrives py_latin1 b!"x" cs h
  have a' : Arrives Source.lawful pyCodecs S ⟨cs⟩ (formMessage b!"x") b!"a.b" [] (some b!"multipart/form-data")
      [(b!"boundary", b!"B")] [] :=
    { size := a.size, inv := a.inv, ok := a.ok, text := a.text, host := a.host, content := a.content,
      codec0 := a.codec0, codec := a.codec, query := a.query, limit := a.limit }
  exact C143_none_refuted (E := E) a' rfl (by decide) ⟨[], []⟩

/-- The sample request of `Verif.Props.Message`, which has two query parameters: allowed with 0, refused with 1. -/
example {σ F : Type} (cs : List Bytes) (h : cs.flatten = sampleMessage.text) (E : Env Source σ F) (hE : E.C = pyCodecs)
    (w : σ) :
    (∃ (r0 r' : Req Source σ F) (S' : Settings), Req.new E.C { maxFields := some 0 } ⟨cs⟩ = .ok r0 ∧
      parseRequestHeader E { maxFields := some 0 } r0 = (.ok (), S', r')) ∧
    (∃ (r0 r' : Req Source σ F) (S' : Settings), Req.new E.C { maxFields := some 1 } ⟨cs⟩ = .ok r0 ∧
      parseRequest E { maxFields := some 1 } r0 w = (.error .tooManyFieldsSent, S', r', w)) := by
  have a := sampleMessage_arrives cs h
  have a' : Arrives Source.lawful E.C { ({} : Settings) with maxFields := some 0 } ⟨cs⟩ sampleMessage _ _ (some _) _ _ :=
    { size := a.size, inv := a.inv, ok := a.ok, text := a.text, host := a.host, content := a.content,
      codec0 := by rw [hE]; exact a.codec0, codec := by rw [hE]; exact a.codec,
      query := by rw [hE]; exact a.query, limit := fun l hl => by cases hl; exact .inl rfl }
  obtain ⟨⟨r0, r', b1, b2, -⟩, c⟩ := C143_zero_refuted a' 1 (Nat.le_refl 1) (by decide +kernel) w
  exact ⟨⟨r0, r', _, b1, b2⟩, c⟩

end Verif
