import Verif.Props.Message
import Verif.Props.Written
import Verif.Props.Lost
/-!
# What a whole multipart request means (C85, C132, C133)
-/

namespace Verif
open Spec

section
variable {ρ : Type} [Producer ρ]

/-- A body that means a form is read to its end. -/
theorem Reads.ends {L : Lawful ρ} {C : Codecs} {S : Settings} (hq : emptyQueryDict C S = .ok ())
    (os : Os) (hos : ∀ e, os.tempFile e = .ok ()) (fuel64 : Nat) (m : MultiPart) (hc : 1 ≤ m.chunkSize)
    (hl : m.contentLength ≠ 0) (hs : List Builtin) (heap : Heap) (ht : Takes S m.contentLength hs)
    (input : LazyStream ρ) (hi : SOK L input) (hf : (L.sc input).length ≤ fuel64)
    {g : Ghost} (hb : Reads C S (b!"--" ++ m.boundary) (L.sc input) ⟨[], [], none, 0, 0⟩ (.ok g)) {x s' w'}
    (h : m.parse C S (builtinOps ρ os hs.length) fuel64 input ⟨hs, heap⟩ = (x, s', w')) :
    L.Inv s'.producer ∧ L.sc s' = [] := by
  have hraw := rawInputLoop_builtin (ρ := ρ) os hs.length ⟨m.contentLength, m.boundary, S⟩ input heap hs []
  simp only [List.length_nil, List.nil_append, ← List.range_eq_range'] at hraw
  rcases parse_spec (L := L) C S _ fuel64 m hc hl input input _ _ hraw hi with
    ⟨e', h1, h2⟩ | ⟨_, r, D', st', s2, R, w2, h1, h2, h3, h4⟩
  · rw [hq] at h1; simp at h1
  · have habs : Abs (BReady hs.length) (BBusy hs.length) (PState.start (builtinOps ρ os hs.length)
        ⟨hs.map (Builtin.rawInput ⟨m.contentLength, m.boundary, S⟩), heap⟩) ⟨[], [], none, 0, 0⟩ :=
      ⟨rfl, rfl, rfl, [], rfl, rfl, rfl, ht.ready _ _⟩
    have hp := Parses.reads hb (builtin_stores (ρ := ρ) hos hs.length) hf habs h2
    rw [h] at h1
    cases h1
    exact ⟨(h4 hp.1).2.2, (h4 hp.1).2.1⟩

/-- The `POST` and `FILES` of a request as an application sees them. -/
def Req.view (r : Req ρ BWorld Uploaded) (heap : Heap) : Option (MVD PostItem × MVD (Bytes × Nat × Option Bytes)) :=
  match r.post, r.files with
  | some (.form post), some files => some (post, files.map (fun q => (q.1, q.2.map (Uploaded.view heap))))
  | _, _ => none

variable {L : Lawful ρ} {E : Env ρ BWorld Uploaded} {S : Settings} {p : ρ} {m : Message}
  {host port type : Bytes} {ps : List (Bytes × Bytes)} {qs : List (UStr × UStr)} {b cl : Bytes} {n : Nat}
  {w : BWorld} {hs : List Builtin} {heap : Heap}

/-- **C85, for a whole request.** A well-formed request announces a multipart form with a boundary and a length, and has a
body that is not empty.  If the body means a form, `parse` succeeds, and `POST` and `FILES` are what the body means; if it means
an error, `parse` raises it, and `POST` and `FILES` stay empty. -/
theorem C85_request (h : Arrives L E.C S p m host port (some type) ps qs)
    (hty : b!"multipart/" <+: type) (hlo : Py.lower type = b!"multipart/form-data")
    (hb : param ps b!"boundary" = some b) (hbo : BoundaryOk (Py.toU b))
    (hcl : m.header b!"Content-Length" = some cl) (hn : Numeral 10 DecDigit cl n) (h0 : n ≠ 0) (hne : m.body ≠ [])
    (hC : ∀ b, E.C.Avoids (.stopUpload b)) (hS : ∀ k, S.dataMaxMemory = some k → 0 ≤ k) (hmem : Allowed S.dataMaxMemory 0)
    (os : Os) (hos : ∀ e, os.tempFile e = .ok ()) (hl : E.load w = (.ok (builtinOps ρ os hs.length), ⟨hs, heap⟩))
    (ht : Takes S n hs) (hf : m.body.length ≤ E.fuel64)
    (res : Except Exc Ghost) (hr : Reads E.C (charsetAfter S ps) (b!"--" ++ b) m.body ⟨[], [], none, 0, 0⟩ res) :
    ∃ (r0 r' : Req ρ BWorld Uploaded) (w' : BWorld), Req.new E.C S p = .ok r0 ∧
      parseRequest E S r0 w = (res.map fun _ => (), charsetAfter S ps, r', w') ∧ HeadRead m host port (some type) qs r' ∧
      match res with
      | .ok g => r'.bodyParsed = true ∧ r'.view w'.heap = some g.view
      | .error _ => r'.bodyParsed = false ∧ r'.post = some (.query ⟨[], true⟩) ∧ r'.files = some [] := by
  have hhs : hs.length ≠ 0 := by
    obtain ⟨⟨x, hx, _⟩, _⟩ := ht
    intro hh
    rw [List.length_eq_zero_iff.1 hh] at hx
    cases hx
  obtain ⟨r0, s, h1, h2, h3, h4, h5, h6, h7⟩ := multipart_arrives h hty hlo hb hbo hcl hn hne hmem hl hhs
  have hST := charsetAfter_fields S ps
  have ht' : Takes (charsetAfter S ps) n hs := by unfold Takes at ht ⊢; rw [hST.2.2]; exact ht
  have hf' : (L.sc s).length ≤ E.fuel64 := by rw [h3]; exact hf
  have key := C85_meaning (L := L) E.C hC (charsetAfter S ps) (by rw [hST.2.1]; exact hS) h5 os hos E.fuel64
    ⟨b, chunkSizeOf (builtinOps ρ os hs.length), n⟩ h4 h0 hs heap ht' s h2 hf' res (by rw [h3]; exact hr)
  rcases hp : (⟨b, chunkSizeOf (builtinOps ρ os hs.length), n⟩ : MultiPart).parse E.C (charsetAfter S ps)
    (builtinOps ρ os hs.length) E.fuel64 s ⟨hs, heap⟩ with ⟨x, s', w'⟩
  rw [hp] at key
  cases res with
  | error e =>
    cases x with
    | ok x => cases key
    | error e' =>
      simp only [viewOf, Except.map, Except.error.injEq] at key
      subst key
      obtain ⟨r', a1, a2, a3, a4, a5, _⟩ := h7 _ s' w' hp
      exact ⟨r0, r', w', h1, a1, a2, a3, a4, a5⟩
  | ok g =>
    cases x with
    | error e' => cases key
    | ok x =>
      obtain ⟨post, files⟩ := x
      simp only [viewOf, Except.map, Except.ok.injEq] at key
      have he := Reads.ends h5 os hos E.fuel64 ⟨b, chunkSizeOf (builtinOps ρ os hs.length), n⟩ h4 h0 hs heap ht' s h2 hf'
        (g := g) (by rw [h3]; exact hr) hp
      obtain ⟨r', a1, a2, a3, a4, a5⟩ := h6 post files s' w' hp he.1 he.2
      refine ⟨r0, r', w', h1, a1, a2, a3, ?_⟩
      simp only [Req.view, a4, a5, key]

/-- **C133, for a whole request, the part that holds.** -/
theorem C133_request_partial (h : Arrives L E.C S p m host port (some type) ps qs)
    (hty : b!"multipart/" <+: type) (hlo : Py.lower type = b!"multipart/form-data")
    (hb : param ps b!"boundary" = some b) (hbo : BoundaryOk (Py.toU b)) (h13 : 13 ∉ b)
    (hcl : m.header b!"Content-Length" = some cl) (hn : Numeral 10 DecDigit cl n) (h0 : n ≠ 0)
    (hC : ∀ b, E.C.Avoids (.stopUpload b)) (hS : ∀ k, S.dataMaxMemory = some k → 0 ≤ k) (hmem : Allowed S.dataMaxMemory 0)
    (os : Os) (hos : ∀ e, os.tempFile e = .ok ()) (hl : E.load w = (.ok (builtinOps ρ os hs.length), ⟨hs, heap⟩))
    (ht : Takes S n hs) (hf : m.body.length ≤ E.fuel64)
    {pre : Option Bytes} {epi : Bytes} (ha : Around b pre epi) (sent : List Sent)
    (hok : ∀ p ∈ sent, p.Ok E.C b) (hlim : SaidInLimits S (sent.map Sent.said))
    (hbody : m.body = sentBody b pre sent (b!"--" ++ epi)) :
    ∃ (r0 r' : Req ρ BWorld Uploaded) (w' : BWorld), Req.new E.C S p = .ok r0 ∧
      parseRequest E S r0 w = (.ok (), charsetAfter S ps, r', w') ∧ HeadRead m host port (some type) qs r' ∧
      r'.bodyParsed = true ∧ r'.view w'.heap = some (saidView (sent.map Sent.said)) := by
  have hST := charsetAfter_fields S ps
  have hne : m.body ≠ [] := by rw [hbody]; cases pre <;> simp [sentBody]
  have := C85_request h hty hlo hb hbo hcl hn h0 hne hC hS hmem os hos hl ht hf (.ok (saidGhost (sent.map Sent.said)))
    (by rw [hbody]; exact reads_whole h.codec.str h13 ha sent hok ⟨by rw [hST.1]; exact hlim.1, by rw [hST.2.1]; exact hlim.2⟩)
  rw [← saidGhost_view hok]
  exact this

/-- **C133 is false of the code, also of whole requests**: with a name or a file name in the extended notation that is not
ASCII, `parse` raises `UnicodeEncodeError`, and `POST` and `FILES` stay empty. -/
theorem C133_request_refuted (h : Arrives L E.C S p m host port (some type) ps qs)
    (hty : b!"multipart/" <+: type) (hlo : Py.lower type = b!"multipart/form-data")
    (hb : param ps b!"boundary" = some b) (hbo : BoundaryOk (Py.toU b)) (h13 : 13 ∉ b)
    (hcl : m.header b!"Content-Length" = some cl) (hn : Numeral 10 DecDigit cl n) (h0 : n ≠ 0)
    (hC : ∀ b, E.C.Avoids (.stopUpload b)) (hS : ∀ k, S.dataMaxMemory = some k → 0 ≤ k) (hmem : Allowed S.dataMaxMemory 0)
    (os : Os) (hos : ∀ e, os.tempFile e = .ok ()) (hl : E.load w = (.ok (builtinOps ρ os hs.length), ⟨hs, heap⟩))
    (ht : Takes S n hs) (hf : m.body.length ≤ E.fuel64)
    {pre : Option Bytes} (ha : Around b pre []) (sent : List Sent)
    (hok : ∀ p ∈ sent, p.Ok E.C b) (hlim : SaidInLimits S (sent.map Sent.said))
    {fs : List ExtField} {content text : Bytes} (hp : PartText E.C b fs content text) (hx : Foreign fs) (rest : Bytes)
    (hbody : m.body = sentBody b pre sent (text ++ b!"\r\n" ++ (b!"--" ++ b) ++ rest)) :
    ∃ (r0 r' : Req ρ BWorld Uploaded) (w' : BWorld), Req.new E.C S p = .ok r0 ∧
      parseRequest E S r0 w = (.error .unicodeEncodeError, charsetAfter S ps, r', w') ∧
      HeadRead m host port (some type) qs r' ∧
      r'.bodyParsed = false ∧ r'.post = some (.query ⟨[], true⟩) ∧ r'.files = some [] := by
  have hST := charsetAfter_fields S ps
  have hne : m.body ≠ [] := by rw [hbody]; cases pre <;> simp [sentBody]
  exact C85_request h hty hlo hb hbo hcl hn h0 hne hC hS hmem os hos hl ht hf (.error .unicodeEncodeError)
    (by
      rw [hbody]
      exact reads_foreign h.codec.str h13 ha sent hok ⟨by rw [hST.1]; exact hlim.1, by rw [hST.2.1]; exact hlim.2⟩ hp hx rest)

/-- **C132, for a whole request, the part that holds.** -/
theorem C132_request_partial (h : Arrives L E.C S p m host port (some type) ps qs)
    (hty : b!"multipart/" <+: type) (hlo : Py.lower type = b!"multipart/form-data")
    (hb : param ps b!"boundary" = some b) (hbo : BoundaryOk (Py.toU b))
    (hcl : m.header b!"Content-Length" = some cl) (hn : Numeral 10 DecDigit cl n) (h0 : n ≠ 0) (hne : m.body ≠ [])
    (hC : ∀ b, E.C.Avoids (.stopUpload b)) (hset : E.C.Settles (charsetAfter S ps))
    (hS : ∀ k, S.dataMaxMemory = some k → 0 ≤ k) (hmem : Allowed S.dataMaxMemory 0)
    (os : Os) (hos : ∀ e, os.tempFile e = .ok ()) (hl : E.load w = (.ok (builtinOps ρ os hs.length), ⟨hs, heap⟩))
    (ht : Takes S n hs) (hf : m.body.length ≤ E.fuel64)
    {g : Ghost} (hr : Reads E.C (charsetAfter S ps) (b!"--" ++ b) m.body ⟨[], [], none, 0, 0⟩ (.ok g))
    {l : List (Bytes × PostItem)} (hd : FieldsOf E.C (charsetAfter S ps) (b!"--" ++ b) m.body l) :
    ∃ (r0 r' : Req ρ BWorld Uploaded) (w' : BWorld), Req.new E.C S p = .ok r0 ∧
      parseRequest E S r0 w = (.ok (), charsetAfter S ps, r', w') ∧
      r'.post = some (.form (l.foldl (fun d x => MVD.append d x.1 x.2) [])) := by
  obtain ⟨r0, r', w', a1, a2, -, -, a4⟩ := C85_request h hty hlo hb hbo hcl hn h0 hne hC hS hmem os hos hl ht hf (.ok g) hr
  obtain ⟨l', h1, h2⟩ := Reads.fields hset hr rfl
  have := FieldsOf.unique hd h1
  subst this
  refine ⟨r0, r', w', a1, a2, ?_⟩
  unfold Req.view at a4
  split at a4
  · rename_i post files e1 e2
    rw [e1, ← h2]
    simp only [Ghost.view, Option.some.injEq, Prod.mk.injEq] at a4
    rw [a4.1]
  · cases a4

end

/-! ### Requests that meet the hypotheses -/

/-- A request with the given body, as a form with the boundary `B`. -/
def formMessage (body : Bytes) : Message where
  method := b!"POST"
  path := b!"/"
  proto := b!"HTTP/1.1"
  headers := [(b!"Host", b!"a.b"), (b!"Content-Type", b!"multipart/form-data; boundary=B"), (b!"Content-Length", b!"300")]
  body := body

theorem formMessage_arrives {C : Codecs} (hC : AsciiCodec C ({} : Settings).defaultCharset) (body : Bytes) (cs : List Bytes)
    (h : cs.flatten = (formMessage body).text) :
    Arrives Source.lawful C {} ⟨cs⟩ (formMessage body) b!"a.b" [] (some b!"multipart/form-data")
      [(b!"boundary", b!"B")] [] where
  size := by decide
  inv := trivial
  ok := {
    method := by simp only [formMessage]; decide +kernel
    proto := by simp only [formMessage]; decide +kernel
    scheme := by simp [formMessage]
    path := by simp only [formMessage]; decide +kernel
    slash := ⟨[], rfl, by simp⟩
    query := by simp [formMessage]
    names := by simp only [formMessage]; decide +kernel
    values := by
      have : ∀ p ∈ (formMessage []).headers, (∀ c ∈ p.2, Visible c ∨ c = 32 ∨ c = 9) ∧
        (∀ c, p.2.head? = some c → Visible c) ∧ (∀ c, p.2.getLast? = some c → Visible c) := by decide +kernel
      intro p hp
      obtain ⟨h1, h2, h3⟩ := this p hp
      exact ⟨h1, fun c hc => hc.elim (h2 c) (h3 c)⟩
    some := by simp [formMessage] }
  text := h
  host := ⟨b!"a.b", b!"a.b", .inr ⟨rfl, rfl⟩,
    ⟨.inl ⟨by decide, by unfold nameByte; decide +kernel⟩, by simp, .inl ⟨rfl, rfl⟩⟩, .inr ⟨rfl, fun x hx => by
        have := congrArg List.getLast? hx
        simp at this⟩⟩
  content := ⟨by decide +kernel, b!"multipart/form-data; boundary=B", rfl,
    .snoc (s := b!"multipart/form-data") (n := b!"boundary") (v := b!"B") (t := b!"boundary=B")
      (ps := []) .nil (by decide +kernel) (by decide +kernel) (.inl ⟨by decide +kernel, rfl⟩)⟩
  codec0 := hC
  codec := hC
  query := ⟨[], .nil, .nil⟩
  limit := by
    intro l hl; cases hl
    exact .inr ⟨by decide, show (numPieces (Py.toU []) : Int) ≤ 4096 by decide +kernel⟩

theorem py_latin1 : AsciiCodec pyCodecs ({} : Settings).defaultCharset := py_asciiCodec (e := .latin1) (by decide +kernel)

theorem latin_asciiCodec (enc : Bytes) : AsciiCodec latinCodecs enc where
  replace := fun b _ => rfl
  decode := fun b _ => rfl
  str := fun b hb => by simp only [latinCodecs, (isAscii_iff b).2 hb, if_true]

theorem boundaryB : BoundaryOk (Py.toU b!"B") := ⟨[], 66, .inl rfl, by decide, by decide, by decide, by decide⟩

theorem three_hundred : Numeral 10 DecDigit b!"300" 300 := .more (.more (.one (v := 3) rfl) (v := 0) rfl) (v := 0) rfl

/-- One temporary file handler and enough fuel for a body. -/
def tempEnv (fuel64 : Nat) : Env Source BWorld Uploaded :=
  ⟨pyCodecs, [], fun _ => (.ok (builtinOps Source goodOs 1), ⟨[.temp {}], []⟩), fuel64⟩

/-- The two parts of the example for C133, however the request is cut. -/
example (cs : List Bytes)
    (h : cs.flatten = (formMessage (sentBody b!"B" (some b!"hello") [sentNote, sentFile] (b!"--" ++ b!"\r\n"))).text) :=
  C133_request_partial (E := tempEnv 1000) (formMessage_arrives py_latin1 _ cs h) (by decide) (by decide +kernel) (b := b!"B")
    (by decide +kernel) boundaryB (by decide) rfl three_hundred (by decide) pyCodecs_default.1
    (by intro k hk; cases hk; decide) ⟨_, rfl, by decide⟩ goodOs (fun _ => rfl) (w := ⟨[], []⟩) (hs := [.temp {}]) rfl
    ⟨⟨.temp {}, by simp, trivial⟩, by simp⟩ (by decide +kernel) sentBoth_ok.2.2.1 [sentNote, sentFile] sentBoth_ok.1
    sentBoth_ok.2.1 rfl

theorem sentBody_append (b : Bytes) (pre : Option Bytes) (sent : List Sent) (x y : Bytes) :
    sentBody b pre sent (x ++ y) = sentBody b pre sent x ++ y := by
  cases pre <;> simp [sentBody]

/-- A file name outside ASCII after them. -/
example (rest : Bytes) (cs : List Bytes)
    (h : cs.flatten = (formMessage (sentBody b!"B" (some b!"hello") [sentNote, sentFile]
      (b!"\r\nContent-Disposition: form-data; name=up; filename*=UTF-8''%C3%a9\r\n\r\nx" ++ b!"\r\n" ++
        (b!"--" ++ b!"B") ++ rest))).text) :=
  C133_request_refuted (E := tempEnv (1000 + rest.length)) (formMessage_arrives py_latin1 _ cs h) (by decide) (by decide +kernel)
    (b := b!"B") (by decide +kernel) boundaryB (by decide) rfl three_hundred (by decide) pyCodecs_default.1
    (by intro k hk; cases hk; decide) ⟨_, rfl, by decide⟩ goodOs (fun _ => rfl) (w := ⟨[], []⟩) (hs := [.temp {}]) rfl
    ⟨⟨.temp {}, by simp, trivial⟩, by simp⟩
    (by
      show (sentBody _ _ _ (_ ++ rest)).length ≤ 1000 + rest.length
      rw [sentBody_append, List.length_append]
      exact Nat.add_le_add_right (by decide +kernel) _)
    ⟨sentBoth_ok.2.2.1.preSep, sentBoth_ok.2.2.1.preHead, sentBoth_ok.2.2.1.preShort, by decide +kernel, by decide +kernel⟩
    [sentNote, sentFile] sentBoth_ok.1 sentBoth_ok.2.1 foreignFields_ok.2 foreignFields_ok.1 rest rfl

/-- The body of the example for C132. -/
example (cs : List Bytes) (h : cs.flatten = (formMessage lostBody).text) :=
  C132_request_partial (E := { tempEnv 1000 with C := latinCodecs }) (formMessage_arrives (latin_asciiCodec _) _ cs h) (by decide)
    (by decide +kernel) (b := b!"B") (by decide +kernel) boundaryB rfl three_hundred (by decide) (by decide +kernel)
    (fun b => latin_avoids (by simp) (by simp)) (latin_settles _)
    (by intro k hk; cases hk; decide) ⟨_, rfl, by decide⟩ goodOs (fun _ => rfl) (w := ⟨[], []⟩) (hs := [.temp {}]) rfl
    ⟨⟨.temp {}, by simp, trivial⟩, by simp⟩ (by decide +kernel) lostBody_reads
    (lostBody_fields (by rfl) (by rfl) (by rfl) (by rfl) (by rfl))

end Verif
