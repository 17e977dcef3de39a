import Verif.Props.Empty
import Verif.Props.LeftOpen
/-!
# What becomes of an empty file in a whole request (C146, C115)
-/

namespace Verif
open Spec

section
variable {ρ : Type} [Producer ρ] {L : Lawful ρ}

/-- A parse with the handlers of the package that returns has read the whole body. -/
theorem parse_ok_ends (C : Codecs) (hst : ∀ b, C.Avoids (.stopUpload b))
    (S : Settings) (os : Os) (hos : os.Plain) (fuel64 : Nat) (m : MultiPart)
    (hc : 1 ≤ m.chunkSize) (h0 : m.contentLength ≠ 0) (hmem : ∀ k, S.dataMaxMemory = some k → 0 ≤ k)
    (hs : List Builtin) (heap : Heap) (input : LazyStream ρ) (hi : SOK L input) {x} {s' w'}
    (h : m.parse C S (builtinOps ρ os hs.length) fuel64 input ⟨hs, heap⟩ = (.ok x, s', w')) :
    L.sc s' = [] ∧ L.Inv s'.producer := by
  have hraw := rawInput_world os hs heap ⟨m.contentLength, m.boundary, S⟩ input
  have hph := builtin_alive_phases (ρ := ρ) (n := hs.length) (k := false) hos
  have hI : BAll false hs.length ⟨hs.map (Builtin.rawInput ⟨m.contentLength, m.boundary, S⟩), heap⟩ :=
    ⟨by simp, fun h => by cases h⟩
  rcases parse_spec (L := L) C S _ fuel64 m hc h0 input input _ _ hraw hi with
    ⟨e', _, b2⟩ | ⟨hq, r, D', st', s2, R, w2, h3, h4, h5, h6⟩
  · rw [h] at b2
    simp at b2
  · rw [h] at h3
    simp only [Prod.mk.injEq] at h3
    obtain ⟨rfl, rfl, rfl⟩ := h3
    have hw : Within S (PState.start (builtinOps ρ os hs.length)
        (⟨hs.map (Builtin.rawInput ⟨m.contentLength, m.boundary, S⟩), heap⟩ : BWorld)) := by
      refine ⟨?_, ?_⟩
      · cases hd : S.dataMaxMemory with
        | none => rfl
        | some k => have := hmem k hd; simp [PState.start]; omega
      · unfold emptyQueryDict at hq
        by_contra hx
        rw [Bool.not_eq_false] at hx
        have hx' : S.maxFields.any (· < 0) = true := hx
        rw [hx'] at hq
        simp only [if_true] at hq
        split at hq
        · split at hq <;> simp at hq
        · simp at hq
    obtain ⟨p1, p2⟩ := h4.phase hph ⟨hI, by simp [PState.start]⟩ hw
    unfold endParse at h5
    split at h5
    · exact (h6 rfl).2
    · exfalso
      rcases p2 _ rfl (hst _) with h | h | h
      · exact (hph.plain _ h).2 _ rfl
      · rcases h with h | h | h | h | h <;> cases h
      · cases h.1
    · simp at h5

variable {E : Env ρ BWorld Uploaded} {S : Settings} {p : ρ} {m : Message}
  {host port type : Bytes} {ps : List (Bytes × Bytes)} {qs : List (UStr × UStr)} {b cl : Bytes} {n : Nat}
  {w : BWorld} {hs : List Builtin} {heap : Heap}

/-- What `MultiPartParser.parse` returns for the body is what the request gives. -/
theorem request_view (h : Arrives L E.C S p m host port (some type) ps qs)
    (hty : b!"multipart/" <+: type) (hlo : Py.lower type = b!"multipart/form-data")
    (hb : param ps b!"boundary" = some b) (hbo : BoundaryOk (Py.toU b))
    (hcl : m.header b!"Content-Length" = some cl) (hn : Numeral 10 DecDigit cl n) (h0 : n ≠ 0) (hne : m.body ≠ [])
    (hC : ∀ b, E.C.Avoids (.stopUpload b)) (hmem : Allowed S.dataMaxMemory 0)
    (os : Os) (hos : os.Plain) (hl : E.load w = (.ok (builtinOps ρ os hs.length), ⟨hs, heap⟩)) (hhs : hs ≠ [])
    (res : Except Exc (MVD PostItem × MVD (Bytes × Nat × Option Bytes)))
    (key : ∀ k s, 1 ≤ k → SOK L s → L.sc s = m.body → emptyQueryDict E.C (charsetAfter S ps) = .ok () →
      viewOf ((⟨b, k, n⟩ : MultiPart).parse E.C (charsetAfter S ps) (builtinOps ρ os hs.length) E.fuel64 s ⟨hs, heap⟩).1
        ((⟨b, k, n⟩ : MultiPart).parse E.C (charsetAfter S ps) (builtinOps ρ os hs.length) E.fuel64 s ⟨hs, heap⟩).2.2.heap =
        res) :
    ∃ (r0 r' : Req ρ BWorld Uploaded) (w' : BWorld), Req.new E.C S p = .ok r0 ∧
      parseRequest E S r0 w = (res.map fun _ => (), charsetAfter S ps, r', w') ∧ HeadRead m host port (some type) qs r' ∧
      match res with
      | .ok v => r'.bodyParsed = true ∧ r'.view w'.heap = some v
      | .error _ => r'.bodyParsed = false ∧ r'.post = some (.query ⟨[], true⟩) ∧ r'.files = some [] := by
  obtain ⟨r0, s, h1, h2, h3, h4, h5, h6, h7⟩ := multipart_arrives h hty hlo hb hbo hcl hn hne hmem hl
    (by simp [builtinOps, hhs])
  have hmem' : ∀ k, (charsetAfter S ps).dataMaxMemory = some k → 0 ≤ k := by
    intro k hk
    rw [(charsetAfter_fields S ps).2.1] at hk
    obtain ⟨l, hl1, hl2⟩ := hmem
    rw [hk] at hl1
    cases hl1
    simpa using hl2
  have key := key _ s h4 h2 h3 h5
  rcases hp : (⟨b, chunkSizeOf (builtinOps ρ os hs.length), n⟩ : MultiPart).parse E.C (charsetAfter S ps)
    (builtinOps ρ os hs.length) E.fuel64 s ⟨hs, heap⟩ with ⟨x, s', w'⟩
  rw [hp] at key
  subst key
  cases x with
  | error e =>
    obtain ⟨r', a1, a2, a3, a4, a5, _⟩ := h7 _ s' w' hp
    exact ⟨r0, r', w', h1, a1, a2, a3, a4, a5⟩
  | ok x =>
    obtain ⟨post, files⟩ := x
    have he := parse_ok_ends (L := L) E.C hC (charsetAfter S ps) os hos E.fuel64 _ h4 h0 hmem' hs heap s h2 hp
    obtain ⟨r', a1, a2, a3, a4, a5⟩ := h6 post files s' w' hp he.2 he.1
    refine ⟨r0, r', w', h1, a1, a2, a3, ?_⟩
    simp only [Req.view, a4, a5]

theorem plain_of_works {os : Os} (hos : ∀ e, os.tempFile e = .ok ()) : os.Plain := by
  rintro e ⟨x, hx⟩
  rw [hos] at hx
  cases hx

/-- **C146 for a whole request.** When the handler that takes files is the last one, `POST` and `FILES` are what the body
means without its empty files. -/
theorem C146_request (h : Arrives L E.C S p m host port (some type) ps qs)
    (hty : b!"multipart/" <+: type) (hlo : Py.lower type = b!"multipart/form-data")
    (hb : param ps b!"boundary" = some b) (hbo : BoundaryOk (Py.toU b))
    (hcl : m.header b!"Content-Length" = some cl) (hn : Numeral 10 DecDigit cl n) (h0 : n ≠ 0) (hne : m.body ≠ [])
    (hC : ∀ b, E.C.Avoids (.stopUpload b)) (hS : ∀ k, S.dataMaxMemory = some k → 0 ≤ k) (hmem : Allowed S.dataMaxMemory 0)
    (os : Os) (hos : ∀ e, os.tempFile e = .ok ()) (hl : E.load w = (.ok (builtinOps ρ os hs.length), ⟨hs, heap⟩))
    (ht : TakesLast S n hs) (hf : m.body.length ≤ E.fuel64)
    (res : Except Exc Ghost)
    (hr : ReadsEmpty E.C (charsetAfter S ps) (b!"--" ++ b) false m.body ⟨[], [], none, 0, 0⟩ res) :
    ∃ (r0 r' : Req ρ BWorld Uploaded) (w' : BWorld), Req.new E.C S p = .ok r0 ∧
      parseRequest E S r0 w = (res.map fun _ => (), charsetAfter S ps, r', w') ∧ HeadRead m host port (some type) qs r' ∧
      match res with
      | .ok g => r'.bodyParsed = true ∧ r'.view w'.heap = some g.view
      | .error _ => r'.bodyParsed = false ∧ r'.post = some (.query ⟨[], true⟩) ∧ r'.files = some [] := by
  have hST := charsetAfter_fields S ps
  have ht' : TakesLast (charsetAfter S ps) n hs := by unfold TakesLast at ht ⊢; rw [hST.2.2]; exact ht
  have hhs : hs ≠ [] := by obtain ⟨mid, x, rfl, _⟩ := ht; simp
  have := request_view h hty hlo hb hbo hcl hn h0 hne hC hmem os (plain_of_works hos) hl hhs (res.map Ghost.view)
    (fun k s hk hs' hsc hq => C146_left_out (L := L) E.C hC (charsetAfter S ps) (by rw [hST.2.1]; exact hS) hq os hos E.fuel64
      ⟨b, k, n⟩ hk h0 hs heap ht' s hs' (by rw [hsc]; exact hf) res (by rw [hsc]; exact hr))
  cases res <;> exact this

/-- **C146 for a whole request, the other case.** When a memory handler takes the files and another handler follows it, the
first empty file ends the parsing with an `AttributeError`. -/
theorem C146_request_fatal (h : Arrives L E.C S p m host port (some type) ps qs)
    (hty : b!"multipart/" <+: type) (hlo : Py.lower type = b!"multipart/form-data")
    (hb : param ps b!"boundary" = some b) (hbo : BoundaryOk (Py.toU b))
    (hcl : m.header b!"Content-Length" = some cl) (hn : Numeral 10 DecDigit cl n) (h0 : n ≠ 0) (hne : m.body ≠ [])
    (hC : ∀ b, E.C.Avoids (.stopUpload b)) (hS : ∀ k, S.dataMaxMemory = some k → 0 ≤ k) (hmem : Allowed S.dataMaxMemory 0)
    (os : Os) (hos : ∀ e, os.tempFile e = .ok ()) (hl : E.load w = (.ok (builtinOps ρ os hs.length), ⟨hs, heap⟩))
    (ht : MemoryTakes S n hs) (hf : m.body.length ≤ E.fuel64)
    (res : Except Exc Ghost)
    (hr : ReadsEmpty E.C (charsetAfter S ps) (b!"--" ++ b) true m.body ⟨[], [], none, 0, 0⟩ res) :
    ∃ (r0 r' : Req ρ BWorld Uploaded) (w' : BWorld), Req.new E.C S p = .ok r0 ∧
      parseRequest E S r0 w = (res.map fun _ => (), charsetAfter S ps, r', w') ∧ HeadRead m host port (some type) qs r' ∧
      match res with
      | .ok g => r'.bodyParsed = true ∧ r'.view w'.heap = some g.view
      | .error _ => r'.bodyParsed = false ∧ r'.post = some (.query ⟨[], true⟩) ∧ r'.files = some [] := by
  have hST := charsetAfter_fields S ps
  have ht' : MemoryTakes (charsetAfter S ps) n hs := by unfold MemoryTakes at ht ⊢; rw [hST.2.2]; exact ht
  have hhs : hs ≠ [] := by obtain ⟨_, m, t, rest, rfl, _⟩ := ht; simp
  have := request_view h hty hlo hb hbo hcl hn h0 hne hC hmem os (plain_of_works hos) hl hhs (res.map Ghost.view)
    (fun k s hk hs' hsc hq => C146_fatal (L := L) E.C hC (charsetAfter S ps) (by rw [hST.2.1]; exact hS) hq os hos E.fuel64
      ⟨b, k, n⟩ hk h0 hs heap ht' s hs' (by rw [hsc]; exact hf) res (by rw [hsc]; exact hr))
  cases res <;> exact this

/-- **C146 for requests with forms.** A request with a form in which some files are empty gives the `POST` and `FILES` of the
form without these files. -/
theorem C146_request_form (h : Arrives L E.C S p m host port (some type) ps qs)
    (hty : b!"multipart/" <+: type) (hlo : Py.lower type = b!"multipart/form-data")
    (hb : param ps b!"boundary" = some b) (hbo : BoundaryOk (Py.toU b)) (h13 : 13 ∉ b)
    (hcl : m.header b!"Content-Length" = some cl) (hn : Numeral 10 DecDigit cl n) (h0 : n ≠ 0)
    (hC : ∀ b, E.C.Avoids (.stopUpload b)) (hS : ∀ k, S.dataMaxMemory = some k → 0 ≤ k) (hmem : Allowed S.dataMaxMemory 0)
    (os : Os) (hos : ∀ e, os.tempFile e = .ok ()) (hl : E.load w = (.ok (builtinOps ρ os hs.length), ⟨hs, heap⟩))
    (ht : TakesLast S n hs) (hf : m.body.length ≤ E.fuel64)
    {pre : Option Bytes} {epi : Bytes} (ha : Around b pre epi)
    (its : List FormItem) (hok : ∀ it ∈ its, it.OkOrEmpty b) (hlim : InLimits S its)
    (hbody : m.body = renderForm b its pre epi) :
    ∃ (r0 r' : Req ρ BWorld Uploaded) (w' : BWorld), Req.new E.C S p = .ok r0 ∧
      parseRequest E S r0 w = (.ok (), charsetAfter S ps, r', w') ∧ HeadRead m host port (some type) qs r' ∧
      r'.bodyParsed = true ∧ r'.view w'.heap = some (formView (its.filter (fun it => !it.isEmptyFile))) := by
  have hST := charsetAfter_fields S ps
  have hne : m.body ≠ [] := by rw [hbody]; cases pre <;> simp [renderForm]
  have hr := renderForm_reads E.C (charsetAfter S ps) false h.codec.str h13 ha its hok
    ⟨by rw [hST.1]; exact hlim.1, by rw [hST.2.1]; exact hlim.2⟩
  rw [if_neg (by simp), ← hbody] at hr
  have := C146_request h hty hlo hb hbo hcl hn h0 hne hC hS hmem os hos hl ht hf _ hr
  rw [← form_view its hok]
  exact this

/-- **C146 and C115 for requests with forms, the other case**: a request with a form in which some file is empty is refused with
an `AttributeError` when a memory handler takes the files and another handler follows it. -/
theorem C146_request_form_fatal (h : Arrives L E.C S p m host port (some type) ps qs)
    (hty : b!"multipart/" <+: type) (hlo : Py.lower type = b!"multipart/form-data")
    (hb : param ps b!"boundary" = some b) (hbo : BoundaryOk (Py.toU b)) (h13 : 13 ∉ b)
    (hcl : m.header b!"Content-Length" = some cl) (hn : Numeral 10 DecDigit cl n) (h0 : n ≠ 0)
    (hC : ∀ b, E.C.Avoids (.stopUpload b)) (hS : ∀ k, S.dataMaxMemory = some k → 0 ≤ k) (hmem : Allowed S.dataMaxMemory 0)
    (os : Os) (hos : ∀ e, os.tempFile e = .ok ()) (hl : E.load w = (.ok (builtinOps ρ os hs.length), ⟨hs, heap⟩))
    (ht : MemoryTakes S n hs) (hf : m.body.length ≤ E.fuel64)
    {pre : Option Bytes} {epi : Bytes} (ha : Around b pre epi)
    (its : List FormItem) (hok : ∀ it ∈ its, it.OkOrEmpty b) (hlim : InLimits S its)
    (he : ∃ it ∈ its, it.isEmptyFile = true) (hbody : m.body = renderForm b its pre epi) :
    ∃ (r0 r' : Req ρ BWorld Uploaded) (w' : BWorld), Req.new E.C S p = .ok r0 ∧
      parseRequest E S r0 w = (.error .attributeError, charsetAfter S ps, r', w') ∧
      HeadRead m host port (some type) qs r' ∧
      r'.bodyParsed = false ∧ r'.post = some (.query ⟨[], true⟩) ∧ r'.files = some [] := by
  have hST := charsetAfter_fields S ps
  have hne : m.body ≠ [] := by rw [hbody]; cases pre <;> simp [renderForm]
  have hr := renderForm_reads E.C (charsetAfter S ps) true h.codec.str h13 ha its hok
    ⟨by rw [hST.1]; exact hlim.1, by rw [hST.2.1]; exact hlim.2⟩
  rw [if_pos ⟨rfl, by simpa using he⟩, ← hbody] at hr
  exact C146_request_fatal h hty hlo hb hbo hcl hn h0 hne hC hS hmem os hos hl ht hf _ hr

/-! ### Requests that meet the hypotheses -/

theorem gapForm_okB : ∀ it ∈ gapForm, it.OkOrEmpty b!"B" := by
  intro it hit
  simp only [gapForm, List.mem_cons, List.not_mem_nil, or_false] at hit
  rcases hit with rfl | rfl | rfl | rfl
  · exact ⟨by decide +kernel, by decide +kernel, by decide +kernel, by decide +kernel,
      by decide +kernel, separable_of_no_semicolon (by decide +kernel) (by decide +kernel)⟩
  · exact .inr ⟨rfl, [97], by decide +kernel, by decide +kernel, by decide +kernel, by decide +kernel,
      by decide +kernel, separable_of_no_semicolon (by decide +kernel) (by decide +kernel), by decide +kernel,
      by decide +kernel, by decide +kernel, by decide +kernel, by decide +kernel, by decide +kernel⟩
  · exact .inl ⟨by decide +kernel, by decide +kernel, by decide +kernel, by decide +kernel,
      by decide +kernel, separable_of_no_semicolon (by decide +kernel) (by decide +kernel), by decide +kernel,
      by decide +kernel, by decide +kernel, by decide +kernel, by decide +kernel, by decide +kernel⟩
  · exact .inr ⟨rfl, [97], by decide +kernel, by decide +kernel, by decide +kernel, by decide +kernel,
      by decide +kernel, separable_of_no_semicolon (by decide +kernel) (by decide +kernel), by decide +kernel,
      by decide +kernel, by decide +kernel, by decide +kernel, by decide +kernel, by decide +kernel⟩

theorem gapAroundB : Around b!"B" none b!"\r\n" :=
  ⟨by simp, by simp, by simp, by decide +kernel, by decide +kernel⟩

/-- With the handlers of the default settings: one field, one file. -/
example (cs : List Bytes) (h : cs.flatten = (formMessage (renderForm b!"B" gapForm none b!"\r\n")).text) :
    let E : Env Source BWorld Uploaded := ⟨latinCodecs, [], fun _ => (.ok (builtinOps Source goodOs 1), ⟨[.conv {}], []⟩), 1000⟩
    ∃ (r0 r' : Req Source BWorld Uploaded) (w' : BWorld), Req.new E.C {} ⟨cs⟩ = .ok r0 ∧
      parseRequest E {} r0 ⟨[], []⟩ = (.ok (), charsetAfter {} [(b!"boundary", b!"B")], r', w') ∧
      HeadRead (formMessage (renderForm b!"B" gapForm none b!"\r\n")) b!"a.b" [] (some b!"multipart/form-data") [] r' ∧
      r'.bodyParsed = true ∧ r'.view w'.heap = some (formView [.field b!"a" b!"x", .file b!"up" b!"m.txt" b!"text/plain" b!"data"]) := by
  intro E
  exact C146_request_form (E := E) (formMessage_arrives (latin_asciiCodec _) _ cs h)
    (by decide) (by decide +kernel) (b := b!"B") (by decide +kernel) boundaryB (by decide) rfl three_hundred (by decide)
    (fun b => latin_avoids (by simp) (by simp)) (by intro k hk; cases hk; decide) ⟨_, rfl, by decide⟩ goodOs (fun _ => rfl)
    (w := ⟨[], []⟩) (hs := [.conv {}]) (heap := []) rfl ⟨[], .conv {}, rfl, by simp, fun _ => by decide⟩
    (by show (renderForm b!"B" gapForm none b!"\r\n").length ≤ 1000; decide +kernel) gapAroundB gapForm gapForm_okB
    ⟨by intro n h; cases h; decide, by intro n h; cases h; decide⟩ rfl

/-- With a memory handler before a temporary-file handler: an `AttributeError`. -/
example (cs : List Bytes) (h : cs.flatten = (formMessage (renderForm b!"B" gapForm none b!"\r\n")).text) :
    let E : Env Source BWorld Uploaded :=
      ⟨latinCodecs, [], fun _ => (.ok (builtinOps Source goodOs 2), ⟨[.memory {}, .temp {}], []⟩), 1000⟩
    ∃ (r0 r' : Req Source BWorld Uploaded) (w' : BWorld), Req.new E.C {} ⟨cs⟩ = .ok r0 ∧
      parseRequest E {} r0 ⟨[], []⟩ = (.error .attributeError, charsetAfter {} [(b!"boundary", b!"B")], r', w') ∧
      HeadRead (formMessage (renderForm b!"B" gapForm none b!"\r\n")) b!"a.b" [] (some b!"multipart/form-data") [] r' ∧
      r'.bodyParsed = false ∧ r'.post = some (.query ⟨[], true⟩) ∧ r'.files = some [] := by
  intro E
  exact C146_request_form_fatal (E := E) (formMessage_arrives (latin_asciiCodec _) _ cs h)
    (by decide) (by decide +kernel) (b := b!"B") (by decide +kernel) boundaryB (by decide) rfl three_hundred (by decide)
    (fun b => latin_avoids (by simp) (by simp)) (by intro k hk; cases hk; decide) ⟨_, rfl, by decide⟩ goodOs (fun _ => rfl)
    (w := ⟨[], []⟩) (hs := [.memory {}, .temp {}]) (heap := []) rfl
    ⟨by show (300 : Int) ≤ _; decide, {}, .temp {}, [], rfl, .inr (.inl rfl)⟩
    (by show (renderForm b!"B" gapForm none b!"\r\n").length ≤ 1000; decide +kernel) gapAroundB gapForm gapForm_okB
    ⟨by intro n h; cases h; decide, by intro n h; cases h; decide⟩ ⟨.file b!"last" b!"l" b!"" [], by simp [gapForm], rfl⟩ rfl

end
end Verif
