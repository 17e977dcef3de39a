import Verif.Props.Meant
import Verif.Props.Decoding
/-!
# Base64 files that are cut short (C145)
-/

namespace Verif
open Spec

namespace Spec

/-- A base64 text that is cut short: groups of four characters of the alphabet and a last group that is not complete. -/
def CutShort (t : Bytes) : Prop :=
  ∃ a b, t = a ++ b ∧ a.length % 4 = 0 ∧ (∀ c ∈ a, c ∈ b64alphabet) ∧ b ≠ [] ∧ b.length < 4

/-- Reading `D` after `g` one comes, after parts that have a meaning, to a file in base64 whose text without white space
is `P`. -/
inductive Comes64 (C : Codecs) (S : Settings) (sep : Bytes) (P : Bytes → Prop) : Bytes → Ghost → Prop where
  | here {D g md content d n name fn} : D ≠ [] → PartHead C (cut sep D) .file md content → partName md = some (d, n) →
      forceText n.strip = .ok name → dispositionFileName d = .ok fn → fn ≠ [] → transferEnc md = some b!"base64" →
      P (Py.removeSpaces content) → Comes64 C S sep P D g
  | later {D g g' t md content} : D ≠ [] → PartHead C (cut sep D) t md content →
      PartReads C S t md content ((cut sep D).length < 1024) g.close (.ok g') →
      Comes64 C S sep P (after sep D) g' → Comes64 C S sep P D g

end Spec

theorem Spec.CutShort.length {t : Bytes} (h : CutShort t) : t.length % 4 ≠ 0 := by
  obtain ⟨a, b, rfl, h1, _, h2, h3⟩ := h
  have := List.length_pos_of_ne_nil h2
  rw [List.length_append]
  omega

/-- Groups of four characters of the alphabet can be decoded. -/
theorem a2bLoop_groups (t : Bytes) : ∀ (q char : Nat) (out : Bytes), q < 4 → (q + t.length) % 4 = 0 →
    (∀ c ∈ t, c ∈ b64alphabet) → Py.a2bLoop t q char (6 * q % 8) out ≠ none := by
  induction t with
  | nil =>
    intro q char out h1 h2 _
    have : q = 0 := by simp at h2; omega
    subst this
    simp [Py.a2bLoop]
  | cons c t ih =>
    intro q char out h1 h2 h3
    have hc := h3 c (by simp)
    have h61 : c ≠ 61 := by rintro rfl; exact absurd hc (by decide)
    have hv : Py.b64val c ≠ none := fun h => (b64val_none c).1 h hc
    obtain ⟨v, hv⟩ := Option.ne_none_iff_exists'.1 hv
    simp only [List.length_cons] at h2
    unfold Py.a2bLoop
    rw [if_neg h61, hv]
    simp only
    have e1 : (q + 1) % 4 < 4 := by omega
    have e2 : ((q + 1) % 4 + t.length) % 4 = 0 := by omega
    have e4 : ∀ c ∈ t, c ∈ b64alphabet := fun c h => h3 c (by simp [h])
    split
    · have e3 : 6 * q % 8 + 6 - 8 = 6 * ((q + 1) % 4) % 8 := by omega
      rw [e3]
      exact ih _ _ _ e1 e2 e4
    · have e3 : 6 * q % 8 + 6 = 6 * ((q + 1) % 4) % 8 := by omega
      rw [e3]
      exact ih _ _ _ e1 e2 e4

theorem Spec.CutShort.prefix {p q : Bytes} (h : CutShort (p ++ q)) (hp : p.length % 4 = 0) :
    Py.b64decode p ≠ none ∧ CutShort q := by
  obtain ⟨a, b, h0, h1, h2, h3, h4⟩ := h
  have hpa : p.length ≤ a.length := by
    have := congrArg List.length h0
    simp only [List.length_append] at this
    have := List.length_pos_of_ne_nil h3
    omega
  obtain ⟨a', rfl⟩ := List.prefix_of_prefix_length_le ⟨q, rfl⟩ ⟨b, h0.symm⟩ hpa
  rw [List.append_assoc] at h0
  have h0 := List.append_cancel_left h0
  rw [List.length_append] at h1
  refine ⟨?_, a', b, h0, by omega, fun c hc => h2 c (by simp [hc]), h3, h4⟩
  have := a2bLoop_groups p 0 0 [] (by omega) (by simpa using hp) (fun c hc => h2 c (by simp [hc]))
  simpa [Py.b64decode] using this

section
variable {ρ σ F : Type} {H : HandlerOps ρ σ F} {Ready : σ → List (Bytes × F × Bytes) → Prop}
  {Busy : σ → List Nat → List (Bytes × F × Bytes) → Bytes → Bytes → Prop}

/-- How the parser ends on a base64 text that has not whole groups of four. -/
def EndsBadly (t : Bytes) (r : Except Exc Unit) : Prop :=
  (r = .error .diverge ∨ r = .error .typeError) ∧ (CutShort t → r = .error .diverge)

theorem FileRun.endsBadly {T : NewFileArgs → Prop} (hs : Stores H Ready Busy T) {fuel64 : Nat} {content : Bytes}
    {cs cs' : List Nat} {w w' : σ} {r : Except Exc Unit} (h : FileRun H fuel64 true content cs w r cs' w') :
    ∀ done n d, (Py.removeSpaces content).length % 4 ≠ 0 → Busy w cs done n d → EndsBadly (Py.removeSpaces content) r := by
  generalize hb : true = b64 at h
  induction h with
  | stop => intro _ _ _ h; simp [Py.removeSpaces] at h
  | step _ h2 h3 _ ih =>
    intro done n d hl h
    obtain ⟨a1, _⟩ := h2 hb.symm
    obtain ⟨cs2, w2, c1, c2⟩ := hs.feeds _ _ _ _ _ _ h
    rw [c1] at h3
    simp only [Prod.mk.injEq, true_and] at h3
    obtain ⟨rfl, rfl⟩ := h3
    rw [removeSpaces_append] at hl ⊢
    rw [List.length_append] at hl
    obtain ⟨i1, i2⟩ := ih _ _ _ (by omega) c2
    exact ⟨i1, fun hc => i2 (hc.prefix a1).2⟩
  | fail _ _ h3 =>
    intro done n d _ h
    obtain ⟨cs2, w2, c1, c2⟩ := hs.feeds _ _ _ _ _ _ h
    rw [c1] at h3
    simp at h3
  | badBase64 _ h2 h3 =>
    intro done n d _ _
    refine ⟨.inr rfl, fun hc => ?_⟩
    rw [removeSpaces_append] at hc
    exact absurd h3 (hc.prefix h2).1
  | spin => intro _ _ _ _ _; exact ⟨.inl rfl, fun _ => rfl⟩

theorem Parses.comes64 {C : Codecs} {S : Settings} {sep D : Bytes} {g : Ghost} {P : Bytes → Prop}
    (hP : ∀ t, P t → t.length % 4 ≠ 0) (hD : Comes64 C S sep P D g) (hs : Stores H Ready Busy) {fuel64 : Nat}
    {st st' : PState σ F} {r : Except Exc Unit} {D' : Bytes} (hf : D.length ≤ fuel64) (ha : Abs Ready Busy st g)
    (hp : Parses C S H fuel64 sep D st r D' st') : ∃ t, P t ∧ EndsBadly t r := by
  induction hD generalizing st with
  | @here D g md content d n name fn h1 h2 h3 h4 h5 h6 h7 h8 =>
    obtain ⟨t', md', content', b, r1, D1, st1, e1, e2, _, e4⟩ := hp.step_inv h1 h2.no_err
    obtain ⟨rfl, rfl, rfl⟩ := h2.unique e1
    obtain ⟨st2, c1, c2⟩ := ha.complete hs
    obtain ⟨r0, cs, w, k1, k2⟩ := e2.file_inv c1 h3 h4 rfl h5 h6
    obtain ⟨m, _, _, m3⟩ := c2.files
    have m3 : Ready st2.world m.done := m3.2
    obtain ⟨w1, b1, b2⟩ := hs.opens st2.world m.done (fileArgs name fn (transferEnc md) md) trivial m3
    refine ⟨_, h8, ?_⟩
    have hr0 : EndsBadly (Py.removeSpaces content) r0 := by
      cases k1 with
      | refused h => rw [b1] at h; simp at h
      | fed h h2 =>
        rw [b1] at h
        simp only [Prod.mk.injEq, true_and] at h
        subst h
        have : (fileArgs name fn (transferEnc md) md).transferEncoding = some b!"base64" := h7
        rw [decide_eq_true this] at h2
        exact h2.endsBadly hs _ _ _ (hP _ h8) b2
    have hr : r = r0 := by
      have hne : ∃ e, r0 = .error e := by
        rcases hr0.1 with h | h <;> exact ⟨_, h⟩
      obtain ⟨e0, rfl⟩ := hne
      rcases k2 with ⟨h, _⟩ | ⟨h, _⟩ | ⟨e, h, _, h', _⟩
      · simp at h
      · rcases hr0.1 with h' | h' <;> (rw [h'] at h; simp at h)
      · rcases e4 with ⟨e', he, he2, _⟩ | ⟨he, _⟩
        · rw [he2, ← he, h', h]
        · rw [h'] at he; simp at he
    rw [hr]; exact hr0
  | @later D g g1 t md content h1 h2 h3 _ ih =>
    have hcl : (cut sep D).length ≤ D.length := (cut_prefix sep D).length_le
    have hal : (after sep D).length ≤ D.length := by
      unfold after; split <;> simp
    obtain ⟨t', md', content', b, r1, D1, st1, e1, e2, e3, e4⟩ := hp.step_inv h1 h2.no_err
    obtain ⟨rfl, rfl, rfl⟩ := h2.unique e1
    obtain ⟨rfl, j2, j3⟩ := PartRun.reads h3 hs (fun _ _ _ _ _ _ _ _ _ => trivial)
      (fun ht => by have := h2.length ht; omega) ha e2
    rcases e4 with ⟨e, he, he2, _⟩ | ⟨_, _, q2, q3⟩
    · simp at he
    · rw [q2 j2] at q3
      exact ih (by omega) j3 q3

end

section
variable {ρ : Type} [Producer ρ] {L : Lawful ρ}

theorem parse_comes64 (C : Codecs) (S : Settings) (hq : emptyQueryDict C S = .ok ())
    (os : Os) (hos : ∀ e, os.tempFile e = .ok ()) (fuel64 : Nat) (m : MultiPart) (hc : 1 ≤ m.chunkSize)
    (hl : m.contentLength ≠ 0) (hs : List Builtin) (heap : Heap) (ht : Takes S m.contentLength hs)
    (input : LazyStream ρ) (hi : SOK L input) (hf : (L.sc input).length ≤ fuel64) {P : Bytes → Prop}
    (hP : ∀ t, P t → t.length % 4 ≠ 0)
    (hb : Comes64 C S (b!"--" ++ m.boundary) P (L.sc input) ⟨[], [], none, 0, 0⟩) :
    ∃ t e, P t ∧ EndsBadly t (.error e) ∧
      (m.parse C S (builtinOps ρ os hs.length) fuel64 input ⟨hs, heap⟩).1 = .error e := by
  have hraw := rawInputLoop_builtin (ρ := ρ) os hs.length ⟨m.contentLength, m.boundary, S⟩ input heap hs []
  simp only [List.length_nil, List.nil_append, ← List.range_eq_range'] at hraw
  rcases parse_spec (L := L) C S _ fuel64 m hc hl input input _ _ hraw hi with
    ⟨e', h1, h2⟩ | ⟨_, r, D', st', s', R, w', h1, h2, h3, _⟩
  · rw [hq] at h1; simp at h1
  · have habs : Abs (BReady hs.length) (BBusy hs.length) (PState.start (builtinOps ρ os hs.length)
        ⟨hs.map (Builtin.rawInput ⟨m.contentLength, m.boundary, S⟩), heap⟩) ⟨[], [], none, 0, 0⟩ :=
      ⟨rfl, rfl, rfl, [], rfl, rfl, rfl, ht.ready _ _⟩
    obtain ⟨t, t1, t2⟩ := Parses.comes64 hP hb (builtin_stores (ρ := ρ) hos hs.length) hf habs h2
    rw [h1]
    rcases t2.1 with rfl | rfl
    · exact ⟨t, _, t1, t2, by simp only [endParse, Prod.mk.injEq] at h3; exact h3.1.symm⟩
    · exact ⟨t, _, t1, t2, by simp only [endParse, Prod.mk.injEq] at h3; exact h3.1.symm⟩

/-- **C145, the part that holds**: a file in base64 whose text, without white space, has not whole groups of four
characters is never accepted, whatever came before, the chunk size, the pieces in which the body arrives and the
built-in handlers: the parser raises `TypeError` or never ends (`diverge` for every number of rounds `fuel64`).
Missing: that it ends (see `C145_refuted`). -/
theorem C145_not_accepted_partial (C : Codecs) (S : Settings) (hq : emptyQueryDict C S = .ok ())
    (os : Os) (hos : ∀ e, os.tempFile e = .ok ()) (fuel64 : Nat) (m : MultiPart) (hc : 1 ≤ m.chunkSize)
    (hl : m.contentLength ≠ 0) (hs : List Builtin) (heap : Heap) (ht : Takes S m.contentLength hs)
    (input : LazyStream ρ) (hi : SOK L input) (hf : (L.sc input).length ≤ fuel64)
    (hb : Comes64 C S (b!"--" ++ m.boundary) (fun t => t.length % 4 ≠ 0) (L.sc input) ⟨[], [], none, 0, 0⟩) :
    (m.parse C S (builtinOps ρ os hs.length) fuel64 input ⟨hs, heap⟩).1 = .error .typeError ∨
    (m.parse C S (builtinOps ρ os hs.length) fuel64 input ⟨hs, heap⟩).1 = .error .diverge := by
  obtain ⟨t, e, _, h2, h3⟩ := parse_comes64 C S hq os hos fuel64 m hc hl hs heap ht input hi hf (fun _ h => h) hb
  rw [h3]
  rcases h2.1 with h | h
  · cases h; exact .inr rfl
  · cases h; exact .inl rfl

/-- **C145 is false**: every body in which one comes to a file with a base64 text that is cut short keeps the parser busy
for ever, whatever came before, the chunk size, the pieces in which the body arrives and the built-in handlers. -/
theorem C145_refuted (C : Codecs) (S : Settings) (hq : emptyQueryDict C S = .ok ())
    (os : Os) (hos : ∀ e, os.tempFile e = .ok ()) (fuel64 : Nat) (m : MultiPart) (hc : 1 ≤ m.chunkSize)
    (hl : m.contentLength ≠ 0) (hs : List Builtin) (heap : Heap) (ht : Takes S m.contentLength hs)
    (input : LazyStream ρ) (hi : SOK L input) (hf : (L.sc input).length ≤ fuel64)
    (hb : Comes64 C S (b!"--" ++ m.boundary) CutShort (L.sc input) ⟨[], [], none, 0, 0⟩) :
    (m.parse C S (builtinOps ρ os hs.length) fuel64 input ⟨hs, heap⟩).1 = .error .diverge := by
  obtain ⟨t, e, h1, h2, h3⟩ := parse_comes64 C S hq os hos fuel64 m hc hl hs heap ht input hi hf
    (fun _ h => h.length) hb
  rw [h3]
  cases h2.2 h1
  rfl

end

variable {ρ : Type} [Producer ρ]
variable {L : Lawful ρ} {E : Env ρ BWorld Uploaded} {S : Settings} {p : ρ} {m : Message}
  {host port type : Bytes} {ps : List (Bytes × Bytes)} {qs : List (UStr × UStr)} {b cl : Bytes} {n : Nat}
  {w : BWorld} {hs : List Builtin} {heap : Heap}

/-- **C145 is false for whole requests**: one well-formed request with such a file keeps `parse_request` busy for ever. -/
theorem C145_request_refuted (h : Arrives L E.C S p m host port (some type) ps qs)
    (hty : b!"multipart/" <+: type) (hlo : Py.lower type = b!"multipart/form-data")
    (hb : param ps b!"boundary" = some b) (hbo : BoundaryOk (Py.toU b))
    (hcl : m.header b!"Content-Length" = some cl) (hn : Numeral 10 DecDigit cl n) (h0 : n ≠ 0) (hne : m.body ≠ [])
    (hmem : Allowed S.dataMaxMemory 0)
    (os : Os) (hos : ∀ e, os.tempFile e = .ok ()) (hl : E.load w = (.ok (builtinOps ρ os hs.length), ⟨hs, heap⟩))
    (ht : Takes S n hs) (hf : m.body.length ≤ E.fuel64)
    (hr : Comes64 E.C (charsetAfter S ps) (b!"--" ++ b) CutShort m.body ⟨[], [], none, 0, 0⟩) :
    ∃ r0 : Req ρ BWorld Uploaded, Req.new E.C S p = .ok r0 ∧ (parseRequest E S r0 w).1 = .error .diverge := by
  have hhs : hs.length ≠ 0 := by
    obtain ⟨⟨x, hx, _⟩, _⟩ := ht
    intro hh
    rw [List.length_eq_zero_iff.1 hh] at hx
    cases hx
  obtain ⟨r0, s, h1, h2, h3, h4, h5, h6, h7⟩ := multipart_arrives h hty hlo hb hbo hcl hn hne hmem hl hhs
  have hST := charsetAfter_fields S ps
  have ht' : Takes (charsetAfter S ps) n hs := by unfold Takes at ht ⊢; rw [hST.2.2]; exact ht
  have hf' : (L.sc s).length ≤ E.fuel64 := by rw [h3]; exact hf
  have key := C145_refuted (L := L) E.C (charsetAfter S ps) h5 os hos E.fuel64
    ⟨b, chunkSizeOf (builtinOps ρ os hs.length), n⟩ h4 h0 hs heap ht' s h2 hf' (by rw [h3]; exact hr)
  rcases hp : (⟨b, chunkSizeOf (builtinOps ρ os hs.length), n⟩ : MultiPart).parse E.C (charsetAfter S ps)
    (builtinOps ρ os hs.length) E.fuel64 s ⟨hs, heap⟩ with ⟨x, s', w'⟩
  rw [hp] at key
  simp only at key
  subst key
  obtain ⟨r', a1, _⟩ := h7 _ s' w' hp
  exact ⟨r0, h1, by rw [a1]⟩

/-! ### The hypotheses are met -/

/-- A field and then `Hello` in base64, without the padding. -/
def tornBody : Bytes :=
  b!"--B\r\nContent-Disposition: form-data; name=\"a\"\r\n\r\nx\r\n--B\r\nContent-Disposition: form-data; name=\"up\"; filename=\"n\"\r\nContent-Transfer-Encoding: base64\r\n\r\nSGVs\r\nbG8\r\n--B--\r\n"

theorem torn_text : CutShort b!"SGVsbG8" := ⟨b!"SGVs", b!"bG8", rfl, by decide, by decide +kernel, by decide, by decide⟩

theorem tornBody_comes (C : Codecs) (hC : C.strEncode ({} : Settings).defaultCharset b!"a" = .ok b!"a")
    (hd : ∀ ls t acc, partHeaders C ls t acc = partHeaders latinCodecs ls t acc) :
    Comes64 C {} (b!"--" ++ b!"B") CutShort tornBody ⟨[], [], none, 0, 0⟩ := by
  refine .later (t := .raw) (md := []) (content := []) (by decide +kernel) ?_ (.unnamed rfl (by decide +kernel)) ?_
  · have : cut (b!"--" ++ b!"B") tornBody = [] := by decide +kernel
    rw [this]; exact .noHeader (by decide +kernel)
  have h1 : after (b!"--" ++ b!"B") tornBody = tornBody.drop 3 := by decide +kernel
  rw [h1]
  have c1 : cut (b!"--" ++ b!"B") (tornBody.drop 3) = b!"\r\nContent-Disposition: form-data; name=\"a\"\r\n\r\nx" := by
    decide +kernel
  refine .later (by decide +kernel) (by
    rw [c1]; exact .header (i := 42) (by decide +kernel) ((hd _ _ _).trans rfl) (by decide))
    (.field (name := b!"a") (data := b!"x") (key := b!"a") rfl rfl rfl (by intro k hk; cases hk; decide)
      (by intro k hk; cases hk; decide) (by unfold FieldData; rw [if_neg (by decide +kernel)]; rfl) hC (.inr hC)) ?_
  have h2 : after (b!"--" ++ b!"B") (tornBody.drop 3) = tornBody.drop 55 := by decide +kernel
  rw [h2]
  have c2 : cut (b!"--" ++ b!"B") (tornBody.drop 55) =
      b!"\r\nContent-Disposition: form-data; name=\"up\"; filename=\"n\"\r\nContent-Transfer-Encoding: base64" ++
        b!"\r\n\r\nSGVs\r\nbG8" := by decide +kernel
  refine .here (name := b!"up") (fn := b!"n") (by decide +kernel) (by
    rw [c2]; exact .header (i := 92) (by decide +kernel) ((hd _ _ _).trans rfl) (by decide)) rfl rfl rfl (by decide)
    (by decide +kernel) ?_
  have : Py.removeSpaces b!"SGVs\r\nbG8" = b!"SGVsbG8" := by decide +kernel
  exact this ▸ torn_text

/-- The parser never ends on this body, in whatever pieces it arrives. -/
example (fuel64 chunkSize : Nat) (hc : 1 ≤ chunkSize) (hf : 200 ≤ fuel64) (cs : List Bytes) (h : cs.flatten = tornBody) :
    ((⟨b!"B", chunkSize, 100⟩ : MultiPart).parse latinCodecs {} (builtinOps Source goodOs 1) fuel64
      (LazyStream.mk' ⟨cs⟩) ⟨[.temp {}], []⟩).1 = .error .diverge :=
  C145_refuted (L := Source.lawful) latinCodecs {} rfl goodOs (fun _ => rfl) fuel64 ⟨b!"B", chunkSize, 100⟩ hc (by simp)
    [.temp {}] [] ⟨⟨.temp {}, by simp, trivial⟩, by simp⟩ _ (SOK.fresh cs)
    (by rw [sc_fresh, h]; exact le_trans (by decide +kernel) hf)
    (by rw [sc_fresh, h]; exact tornBody_comes _ rfl (fun _ _ _ => rfl))

/-- Nor does it on a whole request with this body. -/
example (cs : List Bytes) (h : cs.flatten = (formMessage tornBody).text) (fuel64 : Nat) (hf : 200 ≤ fuel64) :
    ∃ r0 : Req Source BWorld Uploaded, Req.new latinCodecs {} ⟨cs⟩ = .ok r0 ∧
      (parseRequest { tempEnv fuel64 with C := latinCodecs } {} r0 ⟨[], []⟩).1 = .error .diverge :=
  C145_request_refuted (E := { tempEnv fuel64 with C := latinCodecs }) (formMessage_arrives (latin_asciiCodec _) _ cs h)
    (by decide) (by decide +kernel) (b := b!"B") (by decide +kernel) boundaryB rfl three_hundred (by decide)
    (by decide +kernel) ⟨_, rfl, by decide⟩ goodOs (fun _ => rfl) (w := ⟨[], []⟩) (hs := [.temp {}]) rfl
    ⟨⟨.temp {}, by simp, trivial⟩, by simp⟩ (le_trans (by decide +kernel) hf) (tornBody_comes _ rfl (fun _ _ _ => rfl))

end Verif
