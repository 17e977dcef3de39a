import Verif.Props.Healthy
import Verif.Props.LeftBehind
import Verif.Props.Exact
import Verif.Props.Meant
/-!
# A parse that fails closes no file (C128)
-/

namespace Verif
open Spec

/-- Whatever is called, an invariant of the handlers holds afterwards, also when an exception is raised, and the exception
is not one that the parser takes for a request to skip or to stop. -/
structure HandlerOps.Steady {ρ σ F : Type} (H : HandlerOps ρ σ F) (I : σ → Prop) (X : Exc → Prop) : Prop where
  newFiles : ∀ a w r w', I w → newFiles H a (List.range H.count) w = (r, w') → I w' ∧ ∀ e, r = .error e → X e
  feed : ∀ d cs w r cs' w', I w → feedChunk H (List.range H.count) d cs w = (r, cs', w') →
    I w' ∧ ∀ e, r = .error e → X e
  complete : ∀ cs w r w', I w → completeLoop H cs (List.range H.count) w = (r, w') → I w' ∧ ∀ e, r = .error e → X e
  uploadComplete : ∀ w, I w → uploadCompleteLoop H (List.range H.count) w = (.ok (), w)
  plain : ∀ e, X e → e ≠ .skipFile ∧ ∀ b, e ≠ .stopUpload b

section
variable {ρ σ F : Type} {H : HandlerOps ρ σ F} {I : σ → Prop} {X : Exc → Prop}

theorem HandlerOps.Steady.phases (h : H.Steady I X) : H.Phases I I X where
  idle := fun _ h => h
  newFiles := fun a w r w' hw he => ⟨fun _ => (h.newFiles a w r w' hw he).1, (h.newFiles a w r w' hw he).2⟩
  feed := fun d cs w r cs' w' hw he => ⟨fun _ => (h.feed d cs w r cs' w' hw he).1, (h.feed d cs w r cs' w' hw he).2⟩
  complete := fun cs w r w' hw he => ⟨fun _ => (h.complete cs w r w' hw he).1, (h.complete cs w r w' hw he).2⟩
  uploadComplete := fun w hw => by rw [h.uploadComplete w hw]
  plain := h.plain

theorem completeOld_steady (hp : H.Steady I X) {st st1 : PState σ F} {r} (h : I st.world)
    (hc : completeOld H st = (r, st1)) : I st1.world := by
  unfold completeOld at hc
  split at hc
  · unfold handleFileComplete at hc
    rcases hl : completeLoop H st.counters (List.range H.count) st.world with ⟨(e | (_ | f)), w'⟩
    all_goals
      have := (hp.complete _ _ _ _ h hl).1
      rw [hl] at hc
      simp only [Prod.mk.injEq] at hc
      obtain ⟨-, rfl⟩ := hc
      exact this
  · simp only [Prod.mk.injEq] at hc
    obtain ⟨-, rfl⟩ := hc
    exact h

theorem FileRun.steady (hp : H.Steady I X) {fuel64 : Nat} {b64 : Bool} {content cs w r cs' w'}
    (h : FileRun H fuel64 b64 content cs w r cs' w') (hb : I w) : I w' := by
  induction h with
  | stop => exact hb
  | step _ _ hf _ ih => exact ih (hp.feed _ _ _ _ _ _ hb hf).1
  | fail _ _ hf => exact (hp.feed _ _ _ _ _ _ hb hf).1
  | badBase64 => exact hb
  | spin => exact hb

theorem RecvRun.steady (hp : H.Steady I X) {fuel64 : Nat} {args : NewFileArgs} {content : Bytes} {w r cs w'}
    (h : RecvRun H fuel64 args content w r cs w') (hi : I w) : I w' := by
  cases h with
  | refused hn => exact (hp.newFiles _ _ _ _ hi hn).1
  | fed hn hf => exact hf.steady hp (hp.newFiles _ _ _ _ hi hn).1

theorem PartRun.steady (hp : H.Steady I X) {C : Codecs} {S : Settings} {fuel64 : Nat} {t md content}
    {st st' : PState σ F} {b : Bool} {r} (h : PartRun C S H fuel64 t md content st b r st') (hs : I st.world) :
    I st'.world := by
  cases h with
  | completeErr hc | skip hc | nameErr hc | fileNameErr hc | noFileName hc => exact completeOld_steady hp hs hc
  | tooMany hc | negative hc => exact (completeOld_steady hp hs hc :)
  | @field st1 d n name raw r st2 hc _ _ _ _ _ _ hst =>
    have := completeOld_steady hp hs hc
    have e1 := (storeField_world C S name (transferEnc md) md raw { st1 with numKeys := st1.numKeys + 1 }).1
    rw [hst] at e1
    rw [show st'.world = st1.world from e1]
    exact this
  | file hc _ _ _ _ _ hrecv => exact hrecv.steady hp (completeOld_steady hp hs hc)
  | fileSkip hc _ _ _ _ _ hrecv =>
    exfalso
    rcases (hrecv.phase hp.phases (completeOld_steady hp hs hc)).2 _ rfl with h | h | h
    · exact (hp.plain _ h).1 rfl
    · cases h
    · cases h.1
  | fileErr hc _ _ _ _ _ hrecv _ => exact hrecv.steady hp (completeOld_steady hp hs hc)

theorem Parses.steady (hp : H.Steady I X) {C : Codecs} {S : Settings} {fuel64 : Nat} {sep D D' : Bytes}
    {st st' : PState σ F} {r} (h : Parses C S H fuel64 sep D st r D' st') (hs : I st.world) : I st'.world := by
  induction h with
  | done => exact hs
  | headErr => exact hs
  | partErr _ _ hrun _ => exact hrun.steady hp hs
  | part _ _ hrun _ _ _ _ ih => exact ih (hrun.steady hp hs)

end

section
variable {ρ : Type} {os : Os} {n : Nat}

theorem builtin_steady (hos : os.Plain) : (builtinOps ρ os n).Steady (BAll true n) (Fails true os) where
  newFiles := fun a w r w' hw h => by
    have key : ∀ (is : List Nat) (_ : ∀ i ∈ is, i < n) (w : BWorld), BAll true n w →
        BAll true n (newFiles (builtinOps ρ os n) a is w).2 := by
      intro is
      induction is with
      | nil => intro _ w hw; exact hw
      | cons i is ih =>
        intro hlt w hw
        unfold newFiles
        rcases hm : (builtinOps ρ os n).newFile i a w with ⟨(e | _), w1⟩
        all_goals
          obtain ⟨c1, c2⟩ := hw.call (hlt i (by simp))
            (fun b h r b' h' ha hr => Builtin.newFile_alive (os := os) (args := a) ha hr) hm
        · cases e <;> exact c1
        · exact ih (fun i hi => hlt i (by simp [hi])) w1 c1
    refine ⟨?_, (newFiles_alive hos a _ (fun i hi => by simpa [builtinOps] using hi) w hw r w' h).2⟩
    have := key (List.range (builtinOps ρ os n).count) (fun i hi => by simpa [builtinOps] using hi) w hw
    rw [h] at this
    exact this
  feed := fun d cs w r cs' w' hw h => by
    have key : ∀ (is : List Nat) (_ : ∀ i ∈ is, i < n) (d : Bytes) (cs : List Nat) (w : BWorld), BAll true n w →
        BAll true n (feedChunk (builtinOps ρ os n) is d cs w).2.2 := by
      intro is
      induction is with
      | nil => intro _ d cs w hw; exact hw
      | cons i is ih =>
        intro hlt d cs w hw
        unfold feedChunk
        rcases hm : (builtinOps ρ os n).receive i d (cs.getD i 0) w with ⟨(e | (_ | x)), w1⟩
        all_goals
          obtain ⟨c1, c2⟩ := hw.call (hlt i (by simp))
            (fun b h r b' h' ha hr => Builtin.receive_alive (os := os) (d := d) ha hr) hm
        · exact c1
        · exact c1
        · exact ih (fun i hi => hlt i (by simp [hi])) _ _ w1 c1
    refine ⟨?_, (feedChunk_alive _ (fun i hi => by simpa [builtinOps] using hi) d cs w hw r cs' w' h).2⟩
    have := key (List.range (builtinOps ρ os n).count) (fun i hi => by simpa [builtinOps] using hi) d cs w hw
    rw [h] at this
    exact this
  complete := fun cs w r w' hw h => by
    obtain ⟨h1, h2⟩ := completeLoop_alive cs _ (fun i hi => by simpa [builtinOps] using hi) w hw r w' h
    exact ⟨h1, fun e he => .inl (h2 e he)⟩
  uploadComplete := fun w _ => by rw [uploadCompleteLoop_builtin]
  plain := (builtin_alive_phases (ρ := ρ) (n := n) hos).plain

end

section
variable {ρ : Type} [Producer ρ] {L : Lawful ρ}

/-- How a parse with the handlers of the package ends: with an exception and all files open, or at the end of the body. -/
theorem parse_ends (C : Codecs) (hst : ∀ b, C.Avoids (.stopUpload b))
    (S : Settings) (os : Os) (hos : os.Plain) (fuel64 : Nat) (m : MultiPart)
    (hc : 1 ≤ m.chunkSize) (hmem : ∀ k, S.dataMaxMemory = some k → 0 ≤ k) (hs : List Builtin) (heap : Heap)
    (ho : ∀ o ∈ heap, o.closed = false)
    (input : LazyStream ρ) (hi : SOK L input) {R} {s' w'}
    (h : m.parse C S (builtinOps ρ os hs.length) fuel64 input ⟨hs, heap⟩ = (R, s', w')) :
    (∀ o ∈ w'.heap, o.closed = false) ∧
    (m.contentLength ≠ 0 → (∃ x, R = .ok x) → L.sc s' = [] ∧ L.Inv s'.producer) := by
  have hraw := rawInput_world os hs heap ⟨m.contentLength, m.boundary, S⟩ input
  have hst' := builtin_steady (ρ := ρ) (n := hs.length) hos
  have hI : BAll true hs.length ⟨hs.map (Builtin.rawInput ⟨m.contentLength, m.boundary, S⟩), heap⟩ :=
    ⟨by simp, fun _ => ho⟩
  by_cases h0 : m.contentLength = 0
  · refine ⟨?_, fun h => absurd h0 h⟩
    cases hq : emptyQueryDict C S with
    | error e' =>
      simp only [MultiPart.parse, h0, hq, if_true, Prod.mk.injEq] at h
      obtain ⟨-, -, rfl⟩ := h
      exact ho
    | ok u =>
      simp only [MultiPart.parse, h0, hq, if_true, Prod.mk.injEq] at h
      obtain ⟨-, -, rfl⟩ := h
      exact ho
  rcases parse_spec (L := L) C S _ fuel64 m hc h0 input input _ _ hraw hi with
    ⟨e', _, b2⟩ | ⟨hq, r, D', st', s2, R, w2, h3, h4, h5, h6⟩
  · rw [h] at b2
    simp only [Prod.mk.injEq] at b2
    obtain ⟨rfl, -, rfl⟩ := b2
    exact ⟨ho, fun _ ⟨x, hx⟩ => by cases hx⟩
  · rw [h] at h3
    simp only [Prod.mk.injEq] at h3
    obtain ⟨rfl, rfl, rfl⟩ := h3
    have hw : Within S (PState.start (builtinOps ρ os hs.length)
        (⟨hs.map (Builtin.rawInput ⟨m.contentLength, m.boundary, S⟩), heap⟩ : BWorld)) := by
      refine ⟨?_, ?_⟩
      · cases hd : S.dataMaxMemory with
        | none => rfl
        | some k => have := hmem k hd; simp [PState.start]; omega
      · unfold emptyQueryDict at hq
        by_contra hx
        rw [Bool.not_eq_false] at hx
        have hx' : S.maxFields.any (· < 0) = true := hx
        rw [hx'] at hq
        simp only [if_true] at hq
        split at hq
        · split at hq <;> simp at hq
        · simp at hq
    have q1 := h4.steady hst' hI
    obtain ⟨p1, p2⟩ := h4.phase hst'.phases ⟨hI, by simp [PState.start]⟩ hw
    unfold endParse at h5
    split at h5
    · rw [hst'.uploadComplete _ q1] at h5
      simp only [Prod.mk.injEq] at h5
      obtain ⟨-, rfl⟩ := h5
      exact ⟨q1.alive rfl, fun _ _ => (h6 rfl).2⟩
    · exfalso
      rcases p2 _ rfl (hst _) with h | h | h
      · exact (hst'.plain _ h).2 _ rfl
      · rcases h with h | h | h | h | h <;> cases h
      · cases h.1
    · simp only [Prod.mk.injEq] at h5
      obtain ⟨rfl, rfl⟩ := h5
      exact ⟨q1.alive rfl, fun _ ⟨x, hx⟩ => by cases hx⟩

/-- **C128 is false for every parse that fails**: when `parse` raises, whatever the body, the settings, the handlers of the
package and the exception are, every file that there is afterwards, also each that was opened for this body, is open. -/
theorem C128_failed_refuted (C : Codecs) (hst : ∀ b, C.Avoids (.stopUpload b))
    (S : Settings) (os : Os) (hos : os.Plain) (fuel64 : Nat) (m : MultiPart)
    (hc : 1 ≤ m.chunkSize) (hmem : ∀ k, S.dataMaxMemory = some k → 0 ≤ k) (hs : List Builtin) (heap : Heap)
    (ho : ∀ o ∈ heap, o.closed = false)
    (input : LazyStream ρ) (hi : SOK L input) {e : Exc} {s' w'}
    (h : m.parse C S (builtinOps ρ os hs.length) fuel64 input ⟨hs, heap⟩ = (.error e, s', w')) :
    ∀ o ∈ w'.heap, o.closed = false :=
  (parse_ends (L := L) C hst S os hos fuel64 m hc hmem hs heap ho input hi h).1

variable {E : Env ρ BWorld Uploaded} {S : Settings} {p : ρ} {m : Message}
  {host port type : Bytes} {ps : List (Bytes × Bytes)} {qs : List (UStr × UStr)} {b cl : Bytes} {n : Nat}
  {w : BWorld} {hs : List Builtin} {heap : Heap}

/-- **C128 is false for every upload that fails**: a well-formed multipart request for which `parse()` raises leaves every
file open; `close()` then returns without closing any of them. -/
theorem C128_request_refuted (h : Arrives L E.C S p m host port (some type) ps qs)
    (hty : b!"multipart/" <+: type) (hlo : Py.lower type = b!"multipart/form-data")
    (hb : param ps b!"boundary" = some b) (hbo : BoundaryOk (Py.toU b))
    (hcl : m.header b!"Content-Length" = some cl) (hn : Numeral 10 DecDigit cl n) (h0 : n ≠ 0) (hne : m.body ≠ [])
    (hmem : Allowed S.dataMaxMemory 0) (hst : ∀ b, E.C.Avoids (.stopUpload b))
    (os : Os) (hos : os.Plain) (hl : E.load w = (.ok (builtinOps ρ os hs.length), ⟨hs, heap⟩)) (hhs : hs ≠ [])
    (ho : ∀ o ∈ heap, o.closed = false) :
    ∃ r0 : Req ρ BWorld Uploaded, Req.new E.C S p = .ok r0 ∧
      ∀ e S' r' w', parseRequest E S r0 w = (.error e, S', r', w') → r'.bodyParsed = false ∧
        (∀ o ∈ w'.heap, o.closed = false) ∧ ∀ gone, r'.close gone w'.heap = (.ok (), w'.heap) := by
  obtain ⟨r0, s, h1, h2, h3, h4, h5, h6, h7⟩ := multipart_arrives h hty hlo hb hbo hcl hn hne hmem hl
    (by simp [builtinOps, hhs])
  refine ⟨r0, h1, fun e S' r' w' hp => ?_⟩
  have hmem' : ∀ k, (charsetAfter S ps).dataMaxMemory = some k → 0 ≤ k := by
    intro k hk
    rw [(charsetAfter_fields S ps).2.1] at hk
    obtain ⟨l, hl1, hl2⟩ := hmem
    rw [hk] at hl1
    cases hl1
    simpa using hl2
  rcases hq : (⟨b, chunkSizeOf (builtinOps ρ os hs.length), n⟩ : MultiPart).parse E.C (charsetAfter S ps)
    (builtinOps ρ os hs.length) E.fuel64 s ⟨hs, heap⟩ with ⟨e1 | ⟨post, files⟩, s1, w1⟩
  · obtain ⟨r1, a1, _, a3, _, _, a6⟩ := h7 _ _ _ hq
    rw [hp] at a1
    simp only [Prod.mk.injEq] at a1
    obtain ⟨-, -, rfl, rfl⟩ := a1
    refine ⟨a3, C128_failed_refuted (L := L) E.C hst (charsetAfter S ps) os hos E.fuel64 _ h4 hmem' hs heap ho s h2 hq,
      fun gone => ?_⟩
    unfold Req.close
    rcases a6 with a6 | a6 <;> simp [a6, closeAll]
  · obtain ⟨_, c2⟩ := parse_ends (L := L) E.C hst (charsetAfter S ps) os hos E.fuel64 _ h4 hmem' hs heap ho s h2 hq
    obtain ⟨d1, d2⟩ := c2 h0 ⟨_, rfl⟩
    obtain ⟨r1, a1, _⟩ := h6 _ _ _ _ hq d2 d1
    rw [hp] at a1
    cases a1

/-! ### The hypotheses are met -/

/-- Every body, with a temporary file for each upload. -/
example (cs : List Bytes) (body : Bytes) (hne : body ≠ []) (h : cs.flatten = (formMessage body).text) (fuel64 : Nat) :
    ∃ r0 : Req Source BWorld Uploaded, Req.new latinCodecs {} ⟨cs⟩ = .ok r0 ∧
      ∀ e S' r' w', parseRequest { tempEnv fuel64 with C := latinCodecs } {} r0 ⟨[], []⟩ = (.error e, S', r', w') →
        r'.bodyParsed = false ∧ (∀ o ∈ w'.heap, o.closed = false) ∧ ∀ gone, r'.close gone w'.heap = (.ok (), w'.heap) :=
  C128_request_refuted (E := { tempEnv fuel64 with C := latinCodecs }) (formMessage_arrives (latin_asciiCodec _) _ cs h)
    (by decide) (by decide +kernel) (b := b!"B") (by decide +kernel) boundaryB rfl three_hundred (by decide)
    hne ⟨_, rfl, by decide⟩ (fun b => latin_avoids (by simp) (by simp)) goodOs (by rintro e ⟨x, hx⟩; cases hx) (w := ⟨[], []⟩) (hs := [.temp {}]) rfl
    (by simp) (by simp)

end
end Verif
