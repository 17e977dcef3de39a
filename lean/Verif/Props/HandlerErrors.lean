import Verif.Proofs.Told
import Verif.Proofs.Falters
import Verif.Props.Isolated
import Verif.Props.Trace
import Verif.Props.Limits
/-!
# Upload handlers that fail (C127)
-/

namespace Verif
open Spec

section
variable {ρ σ F : Type} [Producer ρ]

/-- Only exceptions that steer the parser have been written down. -/
def Steered (w : σ × List (Hook × Exc)) : Prop := ∀ x ∈ w.2, Steers x.1 x.2

/-- The last exception that was written down is `e`; it does not steer the parser, the ones before it do. -/
def Failed (e : Exc) (w : σ × List (Hook × Exc)) : Prop :=
  ∃ k l, w.2 = l ++ [(k, e)] ∧ ¬ Steers k e ∧ ∀ x ∈ l, Steers x.1 x.2

theorem noted_told {α : Type} (k : Hook) (r : Except Exc α) (w' : σ) (w : σ × List (Hook × Exc)) (h : Steered w)
    (P : Exc → Prop) (hP : ∀ e, ¬ Steers k e → P e) : Told Steered Failed P r (w', w.2 ++ outcome k r) := by
  rcases r with e | a
  · by_cases hs : Steers k e
    · left
      intro x hx
      rcases List.mem_append.1 hx with hx | hx
      · exact h x hx
      · simp only [outcome, List.mem_singleton] at hx
        subst hx
        exact hs
    · exact .inr ⟨e, hP e hs, rfl, k, w.2, rfl, hs, h⟩
  · left
    intro x hx
    simp only [outcome, List.append_nil] at hx
    exact h x hx

omit [Producer ρ] in
theorem noted_tells (H : HandlerOps ρ σ F) : (noted H).Tells Steered Failed where
  raw i a s w h := noted_told .raw _ _ w h _ (fun _ _ => trivial)
  newFile i a w h := noted_told .newFile _ _ w h _ (by
    intro e he
    refine ⟨?_, ?_, ?_⟩ <;> (intros; intro h; subst h; exact he trivial))
  receive i d n w h := noted_told .receive _ _ w h _ (by
    intro e he
    refine ⟨?_, ?_⟩ <;> (intros; intro h; subst h; exact he trivial))
  complete i n w h := noted_told .complete _ _ w h _ (by
    intro e he b h
    subst h
    exact he trivial)
  upload i w h := noted_told .upload _ _ w h _ (fun _ _ => trivial)
  close i w h := noted_told .close _ _ w h _ (by
    intro e he b h
    subst h
    exact he trivial)

/-- **C127.** Whatever the upload handlers are and whatever is sent to them: write down every exception that one of
their methods raises.  Either all of them steer the parser, or there is a first one that does not.  Then it is the
last one: nothing more is called, and `parse` raises it. -/
theorem C127_reaches (C : Codecs) (S : Settings) (H : HandlerOps ρ σ F) (fuel64 : Nat) (text : Bool) (m : MultiPart)
    (input : LazyStream ρ) (w : σ) :
    let z := m.run C S (noted H) fuel64 text input (w, [])
    (∀ x ∈ z.2.2.2, Steers x.1 x.2) ∨
    ∃ k e l, z.2.2.2 = l ++ [(k, e)] ∧ ¬ Steers k e ∧ (∀ x ∈ l, Steers x.1 x.2) ∧ z.1 = .error e := by
  intro z
  rcases run_told (noted_tells H) C S fuel64 text m input (w, []) (by simp [Steered]) with h | ⟨e, _, h1, k, l, h2, h3, h4⟩
  · exact .inl h
  · exact .inr ⟨k, e, l, h2, h3, h4, h1⟩

/-- **C127.** Writing the exceptions down changes nothing. -/
theorem C127_noted (C : Codecs) (S : Settings) (H : HandlerOps ρ σ F) (fuel64 : Nat) (text : Bool) (m : MultiPart)
    (input : LazyStream ρ) (w : σ) (l : List (Hook × Exc)) :
    let z := m.run C S (noted H) fuel64 text input (w, l)
    m.run C S H fuel64 text input w = (z.1, z.2.1, z.2.2.1) :=
  run_noted H C S fuel64 text m input (w, l)

/-- **C127.** If `parse` returns a form, then no handler has raised anything but exceptions that steer the parser. -/
theorem C127_form (C : Codecs) (S : Settings) (H : HandlerOps ρ σ F) (fuel64 : Nat) (text : Bool) (m : MultiPart)
    (input : LazyStream ρ) (w : σ) (form) (h : (m.run C S H fuel64 text input w).1 = .ok form) :
    ∀ x ∈ (m.run C S (noted H) fuel64 text input (w, [])).2.2.2, Steers x.1 x.2 := by
  rcases C127_reaches C S H fuel64 text m input w with h1 | ⟨k, e, l, h1, h2, h3, h4⟩
  · exact h1
  · have := C127_noted C S H fuel64 text m input w []
    rw [this] at h
    simp only [h4] at h
    cases h

/-! ### Faults -/

/-- The handlers `H` on an unreliable machine: at any moment, any method may raise what `fault` says instead of doing
its work, and leave behind what `harm` makes of the world.  The second component of the world is the time. -/
def shaky (fault : Nat → Hook → Option Exc) (harm : Nat → Hook → σ → σ) (H : HandlerOps ρ σ F) :
    HandlerOps ρ (σ × Nat) F where
  count := H.count
  chunkSize := H.chunkSize
  rawInput i a s w := match fault w.2 .raw with
    | some e => (.error e, s, harm w.2 .raw w.1, w.2 + 1)
    | none => match H.rawInput i a s w.1 with
      | (r, s', w') => (r, s', w', w.2 + 1)
  newFile i a w := match fault w.2 .newFile with
    | some e => (.error e, harm w.2 .newFile w.1, w.2 + 1)
    | none => match H.newFile i a w.1 with
      | (r, w') => (r, w', w.2 + 1)
  receive i d n w := match fault w.2 .receive with
    | some e => (.error e, harm w.2 .receive w.1, w.2 + 1)
    | none => match H.receive i d n w.1 with
      | (r, w') => (r, w', w.2 + 1)
  fileComplete i n w := match fault w.2 .complete with
    | some e => (.error e, harm w.2 .complete w.1, w.2 + 1)
    | none => match H.fileComplete i n w.1 with
      | (r, w') => (r, w', w.2 + 1)
  truthy f w := H.truthy f w.1
  uploadComplete i w := match fault w.2 .upload with
    | some e => (.error e, harm w.2 .upload w.1, w.2 + 1)
    | none => match H.uploadComplete i w.1 with
      | (r, w') => (r, w', w.2 + 1)
  close i w := match fault w.2 .close with
    | some e => (.error e, harm w.2 .close w.1, w.2 + 1)
    | none => match H.close i w.1 with
      | (r, w') => (r, w', w.2 + 1)

omit [Producer ρ] in
theorem shaky_falters (fault : Nat → Hook → Option Exc) (harm : Nat → Hook → σ → σ)
    (hf : ∀ t k e, fault t k = some e → e ≠ .stopFutureHandlers ∧ e ≠ .skipFile ∧ ∀ b, e ≠ .stopUpload b)
    (H : HandlerOps ρ σ F) :
    (shaky fault harm H).Falters Prod.fst (fun e => ∃ t k, fault t k = some e) H where
  count := rfl
  truthy _ _ := rfl
  raw i a s w := by
    simp only [shaky]
    split
    · rename_i e he
      exact .inl ⟨e, ⟨_, _, he⟩, rfl⟩
    · exact .inr rfl
  newFile i a w := by
    unfold Falter
    simp only [shaky]
    split
    · rename_i e he
      exact .inl ⟨e, ⟨_, _, he⟩, rfl⟩
    · exact .inr rfl
  receive i d n w := by
    unfold Falter
    simp only [shaky]
    split
    · rename_i e he
      exact .inl ⟨e, ⟨_, _, he⟩, rfl⟩
    · exact .inr rfl
  complete i n w := by
    unfold Falter
    simp only [shaky]
    split
    · rename_i e he
      exact .inl ⟨e, ⟨_, _, he⟩, rfl⟩
    · exact .inr rfl
  upload i w := by
    unfold Falter
    simp only [shaky]
    split
    · rename_i e he
      exact .inl ⟨e, ⟨_, _, he⟩, rfl⟩
    · exact .inr rfl
  close i w := by
    unfold Falter
    simp only [shaky]
    split
    · rename_i e he
      exact .inl ⟨e, ⟨_, _, he⟩, rfl⟩
    · exact .inr rfl
  plain e := fun ⟨t, k, h⟩ => hf t k e h

/-- **C127.** On an unreliable machine, where at any moment any method of a handler may fail and leave anything behind,
`parse` raises the exception of the fault, or its result, the stream and the handlers are what they are on a reliable
machine. -/
theorem C127_faults (fault : Nat → Hook → Option Exc) (harm : Nat → Hook → σ → σ)
    (hf : ∀ t k e, fault t k = some e → e ≠ .stopFutureHandlers ∧ e ≠ .skipFile ∧ ∀ b, e ≠ .stopUpload b)
    (C : Codecs) (S : Settings) (H : HandlerOps ρ σ F) (fuel64 : Nat) (text : Bool) (m : MultiPart)
    (input : LazyStream ρ) (w : σ) :
    let z := m.run C S (shaky fault harm H) fuel64 text input (w, 0)
    (∃ t k e, fault t k = some e ∧ z.1 = .error e) ∨
    m.run C S H fuel64 text input w = (z.1, z.2.1, z.2.2.1) := by
  intro z
  rcases run_falter (shaky_falters fault harm hf H) C S fuel64 text m input (w, 0) with ⟨e, ⟨t, k, h1⟩, h2⟩ | h
  · exact .inl ⟨t, k, e, h1, h2⟩
  · exact .inr h.symm

/-! ### Requests -/

/-- Everything is well, or the handler raised `e` and so did the method of the request, which does not count as
parsed; a `MultiPartParserError` may have become another exception. -/
def ReqTold {α : Type} (Q : σ → Prop) (B : Exc → σ → Prop) (r : Except Exc α) (q : Req ρ σ F) (w : σ) : Prop :=
  Q w ∨ ∃ e, B e w ∧ (r = .error e ∨ e = .multiPartParserError ∧ ∃ e', r = .error e') ∧ q.bodyParsed = false

theorem parseFileUpload_told {Q : σ → Prop} {B : Exc → σ → Prop} (E : Env ρ σ F)
    (hE : ∀ w, Q w → Q (E.load w).2 ∧ ∀ H, (E.load w).1 = .ok H → H.Tells Q B) (S : Settings) (H : HandlerOps ρ σ F)
    (hk : H.Tells Q B) (r : Req ρ σ F) (hr : r.bodyParsed = false) (w : σ) (h : Q w) :
    Told Q B (fun _ => True) (parseFileUpload E S H r w).1 (parseFileUpload E S H r w).2.2 ∧
    (parseFileUpload E S H r w).2.1.bodyParsed = false := by
  have hl : Q (if H.count = 0 then E.load w else (.ok H, w)).2 ∧
      ∀ H1, (if H.count = 0 then E.load w else (.ok H, w)).1 = .ok H1 → H1.Tells Q B := by
    by_cases hc : H.count = 0
    · rw [if_pos hc]
      exact hE w h
    · rw [if_neg hc]
      exact ⟨h, fun H1 h1 => by cases h1; exact hk⟩
  unfold parseFileUpload
  split
  · exact ⟨.inl h, hr⟩
  · generalize (if H.count = 0 then E.load w else (.ok H, w)) = z at *
    rcases z with ⟨(e | H1), w1⟩
    · exact ⟨.inl hl.1, hr⟩
    · simp only
      split
      · exact ⟨.inl hl.1, hr⟩
      · rename_i m _
        exact ⟨run_told (hl.2 H1 rfl) E.C S E.fuel64 _ m r.stream w1 hl.1, hr⟩

theorem parseByType_told {Q : σ → Prop} {B : Exc → σ → Prop} (E : Env ρ σ F)
    (hE : ∀ w, Q w → Q (E.load w).2 ∧ ∀ H, (E.load w).1 = .ok H → H.Tells Q B) (S : Settings) (H : HandlerOps ρ σ F)
    (hk : H.Tells Q B) (r : Req ρ σ F) (hr : r.bodyParsed = false) (w : σ) (h : Q w) :
    ReqTold Q B (parseByType E S H r w).1 (parseByType E S H r w).2.1 (parseByType E S H r w).2.2 := by
  unfold parseByType
  split
  · exact .inl h
  · split
    · have := parseFileUpload_told E hE S H hk r hr w h
      generalize parseFileUpload E S H r w = z at *
      rcases z with ⟨(e | ⟨p, f⟩), r1, w1⟩
      · by_cases he : e = .multiPartParserError
        · subst he
          simp only
          rcases this.1 with h | ⟨e, _, h1, h2⟩
          · exact .inl h
          · refine .inr ⟨e, h2, .inr ⟨?_, _, rfl⟩, ?_⟩
            · simpa using h1.symm
            · unfold markError
              split <;> exact this.2
        · have h3 : ReqTold Q B (.error e : Except Exc Unit) r1 w1 := by
            rcases this.1 with h | ⟨e', _, h1, h2⟩
            · exact .inl h
            · simp only [Except.error.injEq] at h1
              subst h1
              exact .inr ⟨e, h2, .inl rfl, this.2⟩
          cases e <;> first | exact h3 | exact absurd rfl he
      · exact .inl this.1.ok
    · split
      · split
        · exact .inl h
        · split <;> exact .inl h
      · split <;> exact .inl h

theorem parseBodyStream_told {Q : σ → Prop} {B : Exc → σ → Prop} (E : Env ρ σ F)
    (hE : ∀ w, Q w → Q (E.load w).2 ∧ ∀ H, (E.load w).1 = .ok H → H.Tells Q B) (S : Settings) (H : HandlerOps ρ σ F)
    (hk : H.Tells Q B) (r : Req ρ σ F) (hr : r.bodyParsed = false) (w : σ) (h : Q w) :
    ReqTold Q B (parseBodyStream E S H r w).1 (parseBodyStream E S H r w).2.1 (parseBodyStream E S H r w).2.2 := by
  unfold parseBodyStream
  split
  · exact .inl h
  · simp only
    split
    · split <;> exact .inl h
    · split
      · exact .inl h
      · rename_i s1 _
        have := parseByType_told E hE S H hk { r with stream := s1 } hr w h
        generalize parseByType E S H { r with stream := s1 } w = z at *
        rcases z with ⟨(e | _), r1, w1⟩
        · exact this
        · rcases this with h | ⟨e, h1, h2, h3⟩
          · exact .inl h
          · rcases h2 with h2 | ⟨_, e', h2⟩ <;> cases h2

/-- **C127.** For a request: if a method of an upload handler raises an exception that does not steer the parser,
then `parse` of the request raises it too (only a `MultiPartParserError` may be replaced by the error of making an
empty `QueryDict`), and the request does not count as parsed. -/
theorem C127_request {Q : σ → Prop} {B : Exc → σ → Prop} (E : Env ρ σ F)
    (hE : ∀ w, Q w → Q (E.load w).2 ∧ ∀ H, (E.load w).1 = .ok H → H.Tells Q B) (S : Settings) (r : Req ρ σ F)
    (w : σ) (h : Q w) :
    let z := parseRequest E S r w
    Q z.2.2.2 ∨ ∃ e, B e z.2.2.2 ∧ (z.1 = .error e ∨ e = .multiPartParserError ∧ ∃ e', z.1 = .error e') ∧
      z.2.2.1.bodyParsed = false := by
  intro z
  show ReqTold Q B (parseRequest E S r w).1 (parseRequest E S r w).2.2.1 (parseRequest E S r w).2.2.2
  unfold parseRequest
  rcases parseRequestHeader E S r with ⟨(e | _), S1, r1⟩
  · exact .inl h
  · simp only
    unfold parseRequestBody
    by_cases hb : r1.bodyParsed = true
    · rw [if_pos hb]
      exact .inl h
    · rw [if_neg hb]
      have := hE w h
      rcases hl : E.load w with ⟨(e | H), w1⟩
      · rw [hl] at this
        exact .inl this.1
      · rw [hl] at this
        simp only
        split
        · exact .inl this.1
        · exact parseBodyStream_told E hE S1 H (this.2 H rfl) { r1 with handlers := some H } (by simpa using hb) w1 this.1

end

/-! ### Examples -/

/-- The disk is full at the third call of a handler. -/
def diskFull (t : Nat) (k : Hook) : Option Exc := if t = 2 ∧ k = .receive then some .ioError else none

/-- `fileBody` with a temporary file, when the disk is full. -/
def fullRun := (⟨b!"B", 3, 100⟩ : MultiPart).run latinCodecs {}
  (shaky diskFull (fun _ _ w => w) (builtinOps Source goodOs 1)) 100 false (LazyStream.mk' ⟨[fileBody]⟩)
  ({ hs := [.temp {}] }, 0)

example := C127_faults (ρ := Source) diskFull (fun _ _ w => w)
  (by intro t k e h; unfold diskFull at h; split at h <;> simp_all <;> (subst h; simp)) latinCodecs {}
  (builtinOps Source goodOs 1) 100 false ⟨b!"B", 3, 100⟩ (LazyStream.mk' ⟨[fileBody]⟩) { hs := [.temp {}] }

/-- The exception of the handler is written down, and `parse` raises it. -/
example : (match ((⟨b!"B", 3, 100⟩ : MultiPart).run latinCodecs {}
      (noted (shaky diskFull (fun _ _ w => w) (builtinOps Source goodOs 1))) 100 false (LazyStream.mk' ⟨[fileBody]⟩)
      (({ hs := [.temp {}] }, 0), [])) with
    | (.error e, _, _, l) => some (e, l)
    | _ => none) = some (.ioError, [(.receive, .ioError)]) := by decide +kernel

/-- An exception that steers the parser is written down, and `parse` goes on. -/
example : (match ((⟨b!"B", 3, 100⟩ : MultiPart).run latinCodecs {} (noted (builtinOps Source goodOs 1)) 100 false
      (LazyStream.mk' ⟨[fileBody]⟩) ({ hs := [.memory {}] }, [])) with
    | (.ok (_, files), _, _, l) => some (files.map (fun q => (q.1, q.2.map (·.size))), l)
    | _ => none) = some ([(b!"f", [5])], [(.newFile, .stopFutureHandlers), (.newFile, .stopFutureHandlers)]) := by
  decide +kernel

/-- The hypotheses of `C127_request` can be met, whatever the handlers are. -/
example (H : HandlerOps Source BWorld Uploaded) (S : Settings) (r : Req Source (BWorld × List (Hook × Exc)) Uploaded)
    (w : BWorld) :=
  C127_request (Q := Steered) (B := Failed) ⟨pyCodecs, [], fun w => (.ok (noted H), w), 0⟩
    (fun _ h => ⟨h, fun _ h1 => by cases h1; exact noted_tells H⟩) S r (w, []) (by simp [Steered])

end Verif
