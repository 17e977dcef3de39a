import Verif.Props.NoTaker
import Verif.Props.EmptyRequest
/-!
# An announced length over the memory limit in a whole request (C29)
-/

namespace Verif
open Spec

section
variable {ρ : Type} [Producer ρ] {L : Lawful ρ} {E : Env ρ BWorld Uploaded} {S : Settings} {p : ρ} {m : Message}
  {host port type : Bytes} {ps : List (Bytes × Bytes)} {qs : List (UStr × UStr)} {b cl : Bytes} {n : Nat}
  {w : BWorld} {hs : List Builtin} {heap : Heap}

/-- **C29 is false of the code for every request**: when the handlers keep files in memory only and the header
announces more bytes than they may keep, `FILES` is empty whatever the body is and however parsing ends, and no byte
is written to any file. -/
theorem C29_request_refuted (h : Arrives L E.C S p m host port (some type) ps qs)
    (hty : b!"multipart/" <+: type) (hlo : Py.lower type = b!"multipart/form-data")
    (hb : param ps b!"boundary" = some b) (hbo : BoundaryOk (Py.toU b))
    (hcl : m.header b!"Content-Length" = some cl) (hn : Numeral 10 DecDigit cl n) (h0 : n ≠ 0) (hne : m.body ≠ [])
    (hC : ∀ b, E.C.Avoids (.stopUpload b)) (hmem : Allowed S.dataMaxMemory 0)
    (os : Os) (hos : os.Plain) (hl : E.load w = (.ok (builtinOps ρ os hs.length), ⟨hs, heap⟩)) (hhs : hs ≠ [])
    (hm : ∀ b ∈ hs, ∃ h, b = .memory h) (hlim : S.fileMaxMemory < n) :
    ∃ (r0 r' : Req ρ BWorld Uploaded) (w' : BWorld) (R : Except Exc Unit), Req.new E.C S p = .ok r0 ∧
      parseRequest E S r0 w = (R, charsetAfter S ps, r', w') ∧ HeadRead m host port (some type) qs r' ∧
      (∃ files, r'.files = some files ∧ items files = []) ∧
      w'.heap.map (fun o => (o.data, o.pos)) = heap.map (fun o => (o.data, o.pos)) := by
  obtain ⟨r0, s, h1, h2, h3, h4, h5, h6, h7⟩ := multipart_arrives h hty hlo hb hbo hcl hn hne hmem hl
    (by simp [builtinOps, hhs])
  have hmem' : ∀ k, (charsetAfter S ps).dataMaxMemory = some k → 0 ≤ k := by
    intro k hk
    rw [(charsetAfter_fields S ps).2.1] at hk
    obtain ⟨l, hl1, hl2⟩ := hmem
    rw [hk] at hl1
    cases hl1
    simpa using hl2
  have hlost := C29_lost_refuted E.C (charsetAfter S ps) os E.fuel64 ⟨b, chunkSizeOf (builtinOps ρ os hs.length), n⟩ hs heap
    hm h0 (by rw [(charsetAfter_fields S ps).2.2]; exact hlim) s
  rcases hp : (⟨b, chunkSizeOf (builtinOps ρ os hs.length), n⟩ : MultiPart).parse E.C (charsetAfter S ps)
    (builtinOps ρ os hs.length) E.fuel64 s ⟨hs, heap⟩ with ⟨x, s', w'⟩
  rw [hp] at hlost
  cases x with
  | error e =>
    obtain ⟨r', a1, a2, -, -, a5, -⟩ := h7 _ s' w' hp
    exact ⟨r0, r', w', _, h1, a1, a2, ⟨_, a5, rfl⟩, hlost.2⟩
  | ok x =>
    obtain ⟨post, files⟩ := x
    have he := parse_ok_ends (L := L) E.C hC (charsetAfter S ps) os hos E.fuel64 _ h4 h0 hmem' hs heap s h2 hp
    obtain ⟨r', a1, a2, -, -, a5⟩ := h6 post files s' w' hp he.2 he.1
    exact ⟨r0, r', w', _, h1, a1, a2, ⟨_, a5, hlost.1 post files rfl⟩, hlost.2⟩

end

/-- One file, three hundred bytes announced, a hundred allowed: however the request is cut, `FILES` is empty. -/
example (cs : List Bytes) (h : cs.flatten = (formMessage oneFile).text) :
    let S : Settings := { fileMaxMemory := 100 }
    let E : Env Source BWorld Uploaded :=
      ⟨pyCodecs, [], fun _ => (.ok (builtinOps Source goodOs 1), ⟨[.memory {}], []⟩), 1000⟩
    ∃ (r0 r' : Req Source BWorld Uploaded) (w' : BWorld) (R : Except Exc Unit), Req.new E.C S ⟨cs⟩ = .ok r0 ∧
      parseRequest E S r0 ⟨[], []⟩ = (R, charsetAfter S [(b!"boundary", b!"B")], r', w') ∧
      HeadRead (formMessage oneFile) b!"a.b" [] (some b!"multipart/form-data") [] r' ∧
      (∃ files, r'.files = some files ∧ items files = []) ∧
      w'.heap.map (fun o => (o.data, o.pos)) = ([] : Heap).map (fun o => (o.data, o.pos)) := by
  intro S E
  have a := formMessage_arrives py_latin1 oneFile cs h
  have a' : Arrives Source.lawful pyCodecs S ⟨cs⟩ (formMessage oneFile) b!"a.b" [] (some b!"multipart/form-data")
      [(b!"boundary", b!"B")] [] :=
    { size := a.size, inv := a.inv, ok := a.ok, text := a.text, host := a.host, content := a.content,
      codec0 := a.codec0, codec := a.codec, query := a.query, limit := a.limit }
  exact C29_request_refuted (E := E) a' (by decide) (by decide +kernel) (b := b!"B") (by decide +kernel) boundaryB rfl
    three_hundred (by decide) (by decide) pyCodecs_default.1 ⟨_, rfl, by decide⟩ goodOs (plain_of_works fun _ => rfl)
    (w := ⟨[], []⟩) (hs := [.memory {}]) (heap := []) rfl (by simp) (by simp) (by decide)

end Verif
