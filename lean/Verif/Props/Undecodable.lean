import Verif.Props.Hang
/-!
# Base64 files that cannot be decoded (C32)
-/

namespace Verif
open Spec

namespace Spec

/-- A base64 text in whole groups of four, without padding, in which so many characters have no meaning in base64 that
the others are not in whole groups of four. -/
def Undecodable (t : Bytes) : Prop :=
  t.length % 4 = 0 ∧ 61 ∉ t ∧ (t.filter (· ∈ b64alphabet)).length % 4 ≠ 0

end Spec

theorem Spec.B64Counts.whole {q : Nat} {t : Bytes} {vs : List Nat} (h : B64Counts q t vs) (hq : q < 4) (hp : 61 ∉ t) :
    (q + (t.filter (· ∈ b64alphabet)).length) % 4 = 0 := by
  induction h with
  | full => rfl
  | junk hj _ ih =>
    simp only [List.mem_cons, not_or] at hp
    rw [List.filter_cons_of_neg (by simpa using hj.1)]
    exact ih hq hp.2
  | char hc _ ih =>
    simp only [List.mem_cons, not_or] at hp
    rw [List.filter_cons_of_pos (by simpa using List.mem_of_getElem? hc)]
    have := ih (by omega) hp.2
    simp only [List.length_cons]
    omega
  | stray => simp at hp
  | stray2 => simp at hp
  | pad2 => simp at hp
  | pad3 => simp at hp

/-- However such a text is cut, the first piece cannot be decoded or the rest is such a text. -/
theorem Spec.Undecodable.cut {p q : Bytes} (h : Undecodable (p ++ q)) (hp : p.length % 4 = 0) :
    Py.b64decode p = none ∨ Undecodable q := by
  obtain ⟨h1, h2, h3⟩ := h
  rw [List.filter_append, List.length_append] at h3
  rw [List.length_append] at h1
  simp only [List.mem_append, not_or] at h2
  cases hd : Py.b64decode p with
  | none => exact .inl rfl
  | some d =>
    obtain ⟨vs, hv, _⟩ := (C121_exact p d).1 hd
    have := hv.whole (by omega) h2.1
    exact .inr ⟨by omega, h2.2, by omega⟩

section
variable {ρ σ F : Type} {H : HandlerOps ρ σ F} {Ready : σ → List (Bytes × F × Bytes) → Prop}
  {Busy : σ → List Nat → List (Bytes × F × Bytes) → Bytes → Bytes → Prop}

theorem FileRun.undecodable {T : NewFileArgs → Prop} (hs : Stores H Ready Busy T) {fuel64 : Nat} {content : Bytes}
    {cs cs' : List Nat} {w w' : σ} {r : Except Exc Unit} (h : FileRun H fuel64 true content cs w r cs' w') :
    ∀ done n d, content.length ≤ fuel64 → Undecodable (Py.removeSpaces content) → Busy w cs done n d →
      r = .error .typeError := by
  generalize hb : true = b64 at h
  induction h with
  | stop => intro _ _ _ _ h; exact absurd rfl h.2.2
  | step _ h2 h3 _ ih =>
    intro done n d hf hu h
    obtain ⟨a1, a2⟩ := h2 hb.symm
    obtain ⟨cs2, w2, c1, c2⟩ := hs.feeds _ _ _ _ _ _ h
    rw [c1] at h3
    simp only [Prod.mk.injEq, true_and] at h3
    obtain ⟨rfl, rfl⟩ := h3
    rw [removeSpaces_append] at hu
    rw [List.length_append] at hf
    rcases hu.cut a1 with hn | hu
    · rw [a2] at hn; simp at hn
    · exact ih _ _ _ (by omega) hu c2
  | fail _ _ h3 =>
    intro done n d _ _ h
    obtain ⟨cs2, w2, c1, c2⟩ := hs.feeds _ _ _ _ _ _ h
    rw [c1] at h3
    simp at h3
  | badBase64 => intro _ _ _ _ _ _; rfl
  | spin _ h2 => intro _ _ _ hf hu _; exact absurd hu.1 (h2 hf)

theorem Parses.undecodable {C : Codecs} {S : Settings} {sep D : Bytes} {g : Ghost}
    (hD : Comes64 C S sep Undecodable D g) (hs : Stores H Ready Busy) {fuel64 : Nat}
    {st st' : PState σ F} {r : Except Exc Unit} {D' : Bytes} (hf : D.length ≤ fuel64) (ha : Abs Ready Busy st g)
    (hp : Parses C S H fuel64 sep D st r D' st') : r = .error .typeError := by
  induction hD generalizing st with
  | @here D g md content d n name fn h1 h2 h3 h4 h5 h6 h7 h8 =>
    have hcl : (cut sep D).length ≤ D.length := (cut_prefix sep D).length_le
    have hcc := h2.length (by simp)
    obtain ⟨t', md', content', b, r1, D1, st1, e1, e2, _, e4⟩ := hp.step_inv h1 h2.no_err
    obtain ⟨rfl, rfl, rfl⟩ := h2.unique e1
    obtain ⟨st2, c1, c2⟩ := ha.complete hs
    obtain ⟨r0, cs, w, k1, k2⟩ := e2.file_inv c1 h3 h4 rfl h5 h6
    obtain ⟨m, _, _, m3⟩ := c2.files
    have m3 : Ready st2.world m.done := m3.2
    obtain ⟨w1, b1, b2⟩ := hs.opens st2.world m.done (fileArgs name fn (transferEnc md) md) trivial m3
    have hr0 : r0 = .error .typeError := by
      cases k1 with
      | refused h => rw [b1] at h; simp at h
      | fed h h2 =>
        rw [b1] at h
        simp only [Prod.mk.injEq, true_and] at h
        subst h
        have : (fileArgs name fn (transferEnc md) md).transferEncoding = some b!"base64" := h7
        rw [decide_eq_true this] at h2
        exact h2.undecodable hs _ _ _ (by omega) h8 b2
    subst hr0
    rcases k2 with ⟨h, _⟩ | ⟨h, _⟩ | ⟨e, h, _, h', _⟩
    · simp at h
    · simp at h
    · rcases e4 with ⟨e', he, he2, _⟩ | ⟨he, _⟩
      · rw [he2, ← he, h', h]
      · rw [h'] at he; simp at he
  | @later D g g1 t md content h1 h2 h3 _ ih =>
    have hcl : (cut sep D).length ≤ D.length := (cut_prefix sep D).length_le
    have hal : (after sep D).length ≤ D.length := by
      unfold after; split <;> simp
    obtain ⟨t', md', content', b, r1, D1, st1, e1, e2, e3, e4⟩ := hp.step_inv h1 h2.no_err
    obtain ⟨rfl, rfl, rfl⟩ := h2.unique e1
    obtain ⟨rfl, j2, j3⟩ := PartRun.reads h3 hs (fun _ _ _ _ _ _ _ _ _ => trivial)
      (fun ht => by have := h2.length ht; omega) ha e2
    rcases e4 with ⟨e, he, he2, _⟩ | ⟨_, _, q2, q3⟩
    · simp at he
    · rw [q2 j2] at q3
      exact ih (by omega) j3 q3

end

section
variable {ρ : Type} [Producer ρ] {L : Lawful ρ}

/-- **C32 is false for every such file**: a body in which one comes to a file in base64 that cannot be decoded
(`Undecodable`) raises `TypeError`, not `MultiPartParserError`, whatever came before, the chunk size, the pieces in which
the body arrives and the built-in handlers. -/
theorem C32_undecodable_refuted (C : Codecs) (S : Settings) (hq : emptyQueryDict C S = .ok ())
    (os : Os) (hos : ∀ e, os.tempFile e = .ok ()) (fuel64 : Nat) (m : MultiPart) (hc : 1 ≤ m.chunkSize)
    (hl : m.contentLength ≠ 0) (hs : List Builtin) (heap : Heap) (ht : Takes S m.contentLength hs)
    (input : LazyStream ρ) (hi : SOK L input) (hf : (L.sc input).length ≤ fuel64)
    (hb : Comes64 C S (b!"--" ++ m.boundary) Undecodable (L.sc input) ⟨[], [], none, 0, 0⟩) :
    (m.parse C S (builtinOps ρ os hs.length) fuel64 input ⟨hs, heap⟩).1 = .error .typeError := by
  have hraw := rawInputLoop_builtin (ρ := ρ) os hs.length ⟨m.contentLength, m.boundary, S⟩ input heap hs []
  simp only [List.length_nil, List.nil_append, ← List.range_eq_range'] at hraw
  rcases parse_spec (L := L) C S _ fuel64 m hc hl input input _ _ hraw hi with
    ⟨e', h1, h2⟩ | ⟨_, r, D', st', s', R, w', h1, h2, h3, _⟩
  · rw [hq] at h1; simp at h1
  · have habs : Abs (BReady hs.length) (BBusy hs.length) (PState.start (builtinOps ρ os hs.length)
        ⟨hs.map (Builtin.rawInput ⟨m.contentLength, m.boundary, S⟩), heap⟩) ⟨[], [], none, 0, 0⟩ :=
      ⟨rfl, rfl, rfl, [], rfl, rfl, rfl, ht.ready _ _⟩
    have t2 := Parses.undecodable hb (builtin_stores (ρ := ρ) hos hs.length) hf habs h2
    subst t2
    rw [h1]
    simp only [endParse, Prod.mk.injEq] at h3
    exact h3.1.symm

end

variable {ρ : Type} [Producer ρ]
variable {L : Lawful ρ} {E : Env ρ BWorld Uploaded} {S : Settings} {p : ρ} {m : Message}
  {host port type : Bytes} {ps : List (Bytes × Bytes)} {qs : List (UStr × UStr)} {b cl : Bytes} {n : Nat}
  {w : BWorld} {hs : List Builtin} {heap : Heap}

/-- **C32 is false for whole requests**: a well-formed request with such a file raises `TypeError`. -/
theorem C32_request_refuted (h : Arrives L E.C S p m host port (some type) ps qs)
    (hty : b!"multipart/" <+: type) (hlo : Py.lower type = b!"multipart/form-data")
    (hb : param ps b!"boundary" = some b) (hbo : BoundaryOk (Py.toU b))
    (hcl : m.header b!"Content-Length" = some cl) (hn : Numeral 10 DecDigit cl n) (h0 : n ≠ 0) (hne : m.body ≠ [])
    (hmem : Allowed S.dataMaxMemory 0)
    (os : Os) (hos : ∀ e, os.tempFile e = .ok ()) (hl : E.load w = (.ok (builtinOps ρ os hs.length), ⟨hs, heap⟩))
    (ht : Takes S n hs) (hf : m.body.length ≤ E.fuel64)
    (hr : Comes64 E.C (charsetAfter S ps) (b!"--" ++ b) Undecodable m.body ⟨[], [], none, 0, 0⟩) :
    ∃ r0 : Req ρ BWorld Uploaded, Req.new E.C S p = .ok r0 ∧ (parseRequest E S r0 w).1 = .error .typeError := by
  have hhs : hs.length ≠ 0 := by
    obtain ⟨⟨x, hx, _⟩, _⟩ := ht
    intro hh
    rw [List.length_eq_zero_iff.1 hh] at hx
    cases hx
  obtain ⟨r0, s, h1, h2, h3, h4, h5, h6, h7⟩ := multipart_arrives h hty hlo hb hbo hcl hn hne hmem hl hhs
  have hST := charsetAfter_fields S ps
  have ht' : Takes (charsetAfter S ps) n hs := by unfold Takes at ht ⊢; rw [hST.2.2]; exact ht
  have hf' : (L.sc s).length ≤ E.fuel64 := by rw [h3]; exact hf
  have key := C32_undecodable_refuted (L := L) E.C (charsetAfter S ps) h5 os hos E.fuel64
    ⟨b, chunkSizeOf (builtinOps ρ os hs.length), n⟩ h4 h0 hs heap ht' s h2 hf' (by rw [h3]; exact hr)
  rcases hp : (⟨b, chunkSizeOf (builtinOps ρ os hs.length), n⟩ : MultiPart).parse E.C (charsetAfter S ps)
    (builtinOps ρ os hs.length) E.fuel64 s ⟨hs, heap⟩ with ⟨x, s', w'⟩
  rw [hp] at key
  simp only at key
  subst key
  obtain ⟨r', a1, _⟩ := h7 _ s' w' hp
  exact ⟨r0, h1, by rw [a1]⟩

/-! ### The hypotheses are met -/

/-- A field and then a file in base64 with a character that has no meaning there. -/
def starBody : Bytes :=
  b!"--B\r\nContent-Disposition: form-data; name=\"a\"\r\n\r\nx\r\n--B\r\nContent-Disposition: form-data; name=\"up\"; filename=\"n\"\r\nContent-Transfer-Encoding: base64\r\n\r\nSGVs\r\nbG*v\r\n--B--\r\n"

theorem star_text : Undecodable b!"SGVsbG*v" := ⟨rfl, by decide, by decide +kernel⟩

theorem starBody_comes (C : Codecs) (hC : C.strEncode ({} : Settings).defaultCharset b!"a" = .ok b!"a")
    (hd : ∀ ls t acc, partHeaders C ls t acc = partHeaders latinCodecs ls t acc) :
    Comes64 C {} (b!"--" ++ b!"B") Undecodable starBody ⟨[], [], none, 0, 0⟩ := by
  refine .later (t := .raw) (md := []) (content := []) (by decide +kernel) ?_ (.unnamed rfl (by decide +kernel)) ?_
  · have : cut (b!"--" ++ b!"B") starBody = [] := by decide +kernel
    rw [this]; exact .noHeader (by decide +kernel)
  have h1 : after (b!"--" ++ b!"B") starBody = starBody.drop 3 := by decide +kernel
  rw [h1]
  have c1 : cut (b!"--" ++ b!"B") (starBody.drop 3) = b!"\r\nContent-Disposition: form-data; name=\"a\"\r\n\r\nx" := by
    decide +kernel
  refine .later (by decide +kernel) (by
    rw [c1]; exact .header (i := 42) (by decide +kernel) ((hd _ _ _).trans rfl) (by decide))
    (.field (name := b!"a") (data := b!"x") (key := b!"a") rfl rfl rfl (by intro k hk; cases hk; decide)
      (by intro k hk; cases hk; decide) (by unfold FieldData; rw [if_neg (by decide +kernel)]; rfl) hC (.inr hC)) ?_
  have h2 : after (b!"--" ++ b!"B") (starBody.drop 3) = starBody.drop 55 := by decide +kernel
  rw [h2]
  have c2 : cut (b!"--" ++ b!"B") (starBody.drop 55) =
      b!"\r\nContent-Disposition: form-data; name=\"up\"; filename=\"n\"\r\nContent-Transfer-Encoding: base64" ++
        b!"\r\n\r\nSGVs\r\nbG*v" := by decide +kernel
  refine .here (name := b!"up") (fn := b!"n") (by decide +kernel) (by
    rw [c2]; exact .header (i := 92) (by decide +kernel) ((hd _ _ _).trans rfl) (by decide)) rfl rfl rfl (by decide)
    (by decide +kernel) ?_
  have : Py.removeSpaces b!"SGVs\r\nbG*v" = b!"SGVsbG*v" := by decide +kernel
  exact this ▸ star_text

/-- The whole request, in whatever pieces it arrives. -/
example (cs : List Bytes) (h : cs.flatten = (formMessage starBody).text) (fuel64 : Nat) (hf : 200 ≤ fuel64) :
    ∃ r0 : Req Source BWorld Uploaded, Req.new latinCodecs {} ⟨cs⟩ = .ok r0 ∧
      (parseRequest { tempEnv fuel64 with C := latinCodecs } {} r0 ⟨[], []⟩).1 = .error .typeError :=
  C32_request_refuted (E := { tempEnv fuel64 with C := latinCodecs }) (formMessage_arrives (latin_asciiCodec _) _ cs h)
    (by decide) (by decide +kernel) (b := b!"B") (by decide +kernel) boundaryB rfl three_hundred (by decide)
    (by decide +kernel) ⟨_, rfl, by decide⟩ goodOs (fun _ => rfl) (w := ⟨[], []⟩) (hs := [.temp {}]) rfl
    ⟨⟨.temp {}, by simp, trivial⟩, by simp⟩ (le_trans (by decide +kernel) hf) (starBody_comes _ rfl (fun _ _ _ => rfl))

end Verif
