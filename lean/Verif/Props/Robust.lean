import Verif.Props.Consumed
import Verif.Props.TextBoundary
import Verif.Props.Limits
import Verif.Props.Healthy
/-!
# What parsing a request can raise (C108)
-/

namespace Verif
open Spec

/-- The exceptions with which `parse()` answers a request: those the package defines for this … -/
def OwnExc (e : Exc) : Prop :=
  e = .invalidHttpRequest ∨ e = .noHostFound ∨ e = .tooManyFieldsSent ∨ e = .requestDataTooBig ∨ e = .multiPartParserError

/-- … and those of Python that get through. -/
def ForeignExc (e : Exc) : Prop :=
  e = .valueError ∨ e = .unicodeDecodeError ∨ e = .unicodeEncodeError ∨ e = .typeError ∨ e = .overflowError ∨
    e = .attributeError

theorem ForeignExc.of_value {e : Exc} (h : e.isValueError = true) : ForeignExc e := by
  cases e <;> simp_all [Exc.isValueError, ForeignExc]

section
variable {C : Codecs} {e : Exc}

theorem unquoteRuns_err (hC : C.Avoids e) (enc : Bytes) : ∀ (n : Nat) (s : UStr), unquoteRuns C enc n s ≠ .error e := by
  intro n
  induction n with
  | zero => intro s; simp [unquoteRuns]
  | succ n ih =>
    intro s h
    cases s with
    | nil => simp [unquoteRuns] at h
    | cons c t =>
      rw [unquoteRuns] at h
      repeat' (split at h)
      all_goals first | (simp at h; done) | skip
      all_goals (simp only [Except.error.injEq] at h; subst h)
      all_goals first
        | exact absurd (by assumption) (hC.decodeReplace _ _)
        | exact absurd (by assumption) (ih _)

theorem parseFields_err (hC : C.Avoids e) (enc : Bytes) (kb : Bool) : ∀ ps : List UStr, parseFields C enc kb ps ≠ .error e := by
  have hq : ∀ s, unquoteU C enc s ≠ .error e := by
    intro s
    unfold unquoteU
    split
    · exact unquoteRuns_err hC _ _ _
    · simp
  intro ps
  induction ps with
  | nil => simp [parseFields]
  | cons p ps ih =>
    intro h
    unfold parseFields at h
    split at h
    · rename_i hf
      simp only [Except.error.injEq] at h
      subst h
      unfold parseField at hf
      repeat' (split at hf)
      all_goals first | (simp at hf; done) | skip
      all_goals (simp only [Except.error.injEq] at hf; subst hf)
      all_goals exact absurd (by assumption) (hq _)
    · split at h
      · rename_i hf
        simp only [Except.error.injEq] at h
        subst h
        exact ih hf
      · simp at h

theorem queryDict_err (hC : C.Avoids e) {S : Settings} {qs : Option PyStr} {mu : Bool} (h : queryDict C S qs mu = .error e) :
    e = .tooManyFieldsSent := by
  unfold queryDict at h
  split at h
  · rename_i hq
    simp only [Except.error.injEq] at h
    subst h
    unfold queryText at hq
    simp only at hq
    split at hq
    · simp at hq
    · split at hq
      · exact absurd hq (hC.decode _ _)
      · exact absurd hq (hC.decode _ _)
  · split at h
    · rename_i hq
      simp only [Except.error.injEq] at h
      subst h
      unfold limitedParseQsl at hq
      split at hq
      · exact absurd hq (parseFields_err hC _ _ _)
      · split at hq
        · exact absurd hq (parseFields_err hC _ _ _)
        · simp only at hq
          split at hq
          · simpa using hq.symm
          · exact absurd hq (parseFields_err hC _ _ _)
    · simp at h

theorem headerLines_err : ∀ (fuel : Nat) (s : Bytes) (d : MVD Bytes), s.length < fuel → headerLines fuel s d = .error e →
    e = .invalidHttpRequest ∨ e = .unicodeDecodeError := by
  intro fuel
  induction fuel with
  | zero => intro s d h; omega
  | succ fuel ih =>
    intro s d hl h
    unfold headerLines at h
    split at h
    · simp at h
    · rename_i j hj
      split at h
      · rename_i hp
        simp only [Except.error.injEq] at h
        subst h
        unfold parseHeaderLine at hp
        repeat' (split at hp)
        all_goals simp at hp
        all_goals subst hp
        all_goals simp
      · refine ih _ _ ?_ h
        have : s ≠ [] := by
          rintro rfl
          revert hj; simp [Py.findFrom]
        have := List.length_pos_iff.2 this
        rw [List.length_drop]; omega

theorem parseRequestHeaders_err {s : Bytes} (h : parseRequestHeaders s = .error e) :
    e = .invalidHttpRequest ∨ e = .unicodeDecodeError := by
  unfold parseRequestHeaders at h
  split at h
  · left; simpa using h.symm
  · split at h
    · rename_i hp
      simp only [Except.error.injEq] at h
      subst h
      exact headerLines_err _ _ _ (by rw [List.length_drop]; omega) hp
    · split at h
      · left; simpa using h.symm
      · simp at h

theorem parseRequestLine_err {up : List UStr} {line : Bytes} (h : parseRequestLine up line = .error e) :
    e = .invalidHttpRequest ∨ e = .unicodeDecodeError ∨ e = .valueError := by
  unfold parseRequestLine at h
  split at h
  · split at h
    · rename_i hp
      simp only [Except.error.injEq] at h
      subst h
      unfold urlParseStr at hp
      split at hp
      · unfold urlParse at hp
        split at hp
        · rename_i hq
          simp only [Except.error.injEq] at hp
          subst hp
          unfold urlSplit at hq
          simp only at hq
          right; right
          repeat' (split at hq)
          all_goals simp at hq
          all_goals exact hq.symm
        · simp at hp
      · right; left; simpa using hp.symm
    · simp at h
  · left; simpa using h.symm

theorem create_err {ρ σ F : Type} (hC : C.Avoids e) {H : HandlerOps ρ σ F} {ct cl : Option Bytes}
    (h : MultiPart.create C H ct cl = .error e) : OwnExc e ∨ ForeignExc e := by
  unfold MultiPart.create at h
  simp only at h
  repeat' (split at h)
  all_goals first | (simp at h; done) | skip
  all_goals (simp only [Except.error.injEq] at h; subst h)
  all_goals first
    | (simp [OwnExc]; done)
    | (simp [ForeignExc]; done)
    | exact .inr (.of_value (parseHeader_err hC (by assumption)))

end

section
variable {ρ σ F : Type} [Producer ρ] {L : Lawful ρ} {e : Exc}

omit [Producer ρ] in
theorem applyHeader_err {E : Env ρ σ F} (hC : E.C.Avoids e) {header : Bytes} {S S' : Settings} {r r' : Req ρ σ F}
    (hi : r.info ≠ none) (h : applyHeader E header S r = (.error e, S', r')) : OwnExc e ∨ ForeignExc e := by
  unfold applyHeader at h
  split at h
  · rename_i hp
    simp only [Prod.mk.injEq, Except.error.injEq] at h
    obtain ⟨rfl, -, -⟩ := h
    rcases parseRequestHeaders_err hp with rfl | rfl <;> simp [OwnExc, ForeignExc]
  split at h
  · rename_i hp
    simp only [Prod.mk.injEq, Except.error.injEq] at h
    obtain ⟨rfl, -, -⟩ := h
    rcases parseRequestLine_err hp with rfl | rfl | rfl <;> simp [OwnExc, ForeignExc]
  split at h
  · rename_i hp
    simp only [Prod.mk.injEq, Except.error.injEq] at h
    obtain ⟨rfl, -, -⟩ := h
    unfold hostText at hp
    repeat' (split at hp)
    all_goals simp at hp
    subst hp; simp [OwnExc]
  simp only at h
  split at h
  · rename_i hp
    simp only [Prod.mk.injEq, Except.error.injEq] at h
    obtain ⟨rfl, -, -⟩ := h
    unfold applyContentType at hp
    split at hp
    · simp at hp
    split at hp
    · rename_i hq
      simp only [Prod.mk.injEq, Except.error.injEq] at hp
      obtain ⟨rfl, -, -⟩ := hp
      exact .inr (.of_value (parseHeader_err hC hq))
    · simp only at hp
      split at hp <;> simp at hp
  · rename_i hp
    have hi' : ∀ {h : MVD Bytes} {S S1 : Settings} {r r1 : Req ρ σ F},
        applyContentType E.C h S r = (.ok (), S1, r1) → r1.info = r.info := by
      intro h S S1 r r1 hp
      unfold applyContentType at hp
      split at hp
      · simp only [Prod.mk.injEq] at hp; rw [← hp.2.2]
      split at hp
      · simp at hp
      · simp only at hp
        split at hp
        · simp only [Prod.mk.injEq] at hp; rw [← hp.2.2]
        · simp only [Req.setEncoding, Prod.mk.injEq] at hp; rw [← hp.2.2]
    have := hi' hp
    unfold applyQuery at h
    split at h
    · rename_i hn
      rw [this] at hn
      exact absurd hn hi
    · simp only at h
      split at h
      · rename_i hq
        simp only [Prod.mk.injEq, Except.error.injEq] at h
        obtain ⟨rfl, -, -⟩ := h
        have := by
          split at hq
          · exact queryDict_err hC hq
          · exact queryDict_err hC hq
        subst this; simp [OwnExc]
      · simp at h

/-- The handlers do not raise `e`: never, or at least not in a parse that starts in the world `w`. -/
def QuietAt (L : Lawful ρ) (C : Codecs) (H : HandlerOps ρ σ F) (e : Exc) (w : σ) : Prop :=
  H.Avoids e ∨ ∀ (S : Settings) (m : MultiPart) (fuel64 : Nat) (input : LazyStream ρ),
    (∀ k, S.dataMaxMemory = some k → 0 ≤ k) → 1 ≤ m.chunkSize → SOK L input →
    (m.parse C S H fuel64 input w).1 ≠ .error e

theorem run_err (C : Codecs) (S : Settings) (H : HandlerOps ρ σ F) (fuel64 : Nat) (text : Bool)
    (m : MultiPart) (hc : 1 ≤ m.chunkSize) (hl : LeavesParsing L H)
    {w : σ} (hH : QuietAt L C H e w) (hC : C.Avoids e) (hmem : ∀ k, S.dataMaxMemory = some k → 0 ≤ k)
    (input : LazyStream ρ) (hi : SOK L input) {s' w'}
    (h : m.run C S H fuel64 text input w = (.error e, s', w')) :
    OwnExc e ∨ ForeignExc e ∨ (e = .diverge ∧ b!"base64" <:+: Py.lower (L.sc input)) := by
  have key : ∀ {s' w'}, m.parse C S H fuel64 input w = (.error e, s', w') →
      OwnExc e ∨ ForeignExc e ∨ (e = .diverge ∧ b!"base64" <:+: Py.lower (L.sc input)) := by
    intro s' w' h
    rcases hH with hH | hH
    swap
    · exact absurd (by rw [h]) (hH S m fuel64 input hmem hc hi)
    rcases C67_exceptions C S H fuel64 m hc hl e hH hC hmem input w hi h with h1 | ⟨rfl, -⟩
    · rcases h1 with rfl | rfl | rfl | rfl | rfl <;> simp [OwnExc, ForeignExc]
    · right; right
      refine ⟨rfl, ?_⟩
      by_contra hb
      exact C22_terminates_partial C S H fuel64 m hc hl hH hC hmem input w hi hb (by rw [h])
  cases text with
  | false => exact key h
  | true =>
    rcases C106_same_partial C S H fuel64 m hc hl input w hi with h1 | h1
    · rw [h] at h1
      simp only [Except.error.injEq] at h1
      subst h1; simp [ForeignExc]
    · rw [h1] at h
      exact key h

theorem bodyCore_err {S : Settings} {r r' : Req ρ σ F} (h : SK L 39 r.stream) (hb : r.bodyParsed = false)
    (he : bodyCore S r = (.error e, r')) : e = .requestDataTooBig := by
  unfold bodyCore at he
  simp only [hb, Bool.false_eq_true, false_and, if_false] at he
  split at he
  · simp at he
  · obtain ⟨s', a1, -, ⟨-, a2, a3⟩ | ⟨-, a3⟩⟩ := readBody_spec (Nat.le_refl _) S r h
    · rw [a3] at he; simp at he
    · rw [a3] at he; simp only [Prod.mk.injEq, Except.error.injEq] at he; exact he.1.symm


theorem markError_err {C : Codecs} (hC : C.Avoids e) {S : Settings} {x : Exc} {r r' : Req ρ σ F}
    (h : markError C S x r = (r', e)) : e = x ∨ e = .tooManyFieldsSent := by
  unfold markError at h
  split at h
  · rename_i hq
    simp only [Prod.mk.injEq] at h
    obtain ⟨-, rfl⟩ := h
    exact .inr (queryDict_err hC hq)
  · simp only [Prod.mk.injEq] at h
    exact .inl h.2.symm

/-- The environment does not add the exception `e`: the codecs, the loading of the handlers and the
handlers themselves do not raise it, and the handlers leave the parsing to the parser. -/
structure QuietEnv (L : Lawful ρ) (E : Env ρ σ F) (e : Exc) : Prop where
  codecs : E.C.Avoids e
  load : ∀ w, (E.load w).1 ≠ .error e
  handlers : ∀ w H w', E.load w = (.ok H, w') → LeavesParsing L H ∧ QuietAt L E.C H e w'
  oblivious : ObliviousEnv L E

theorem parseFileUpload_err {E : Env ρ σ F} (hE : QuietEnv L E e) {S : Settings} {H : HandlerOps ρ σ F} {w : σ}
    (hH : LeavesParsing L H ∧ QuietAt L E.C H e w) (hmem : ∀ k, S.dataMaxMemory = some k → 0 ≤ k)
    {r r' : Req ρ σ F} {w'} (hs : SK L 39 r.stream) (hh : r.info.bind (·.headers) ≠ none)
    (h : parseFileUpload E S H r w = (.error e, r', w')) :
    OwnExc e ∨ ForeignExc e ∨ (e = .diverge ∧ b!"base64" <:+: Py.lower (L.sc r.stream)) := by
  unfold parseFileUpload at h
  split at h
  · rename_i hn; exact absurd hn hh
  · split at h
    · rename_i e' w1 hl
      simp only [Prod.mk.injEq, Except.error.injEq] at h
      obtain ⟨rfl, -, -⟩ := h
      exfalso
      split at hl
      · exact hE.load w (by rw [hl])
      · simp at hl
    · rename_i H1 w1 hl
      have hH1 : LeavesParsing L H1 ∧ QuietAt L E.C H1 e w1 := by
        split at hl
        · exact hE.handlers _ _ _ hl
        · simp only [Prod.mk.injEq, Except.ok.injEq] at hl
          rw [← hl.1, ← hl.2]; exact hH
      simp only at h
      split at h
      · rename_i hc
        simp only [Prod.mk.injEq, Except.error.injEq] at h
        obtain ⟨rfl, -, -⟩ := h
        rcases create_err hE.codecs hc with h | h
        · exact .inl h
        · exact .inr (.inl h)
      · rename_i m hc
        simp only [Prod.mk.injEq] at h
        exact run_err E.C S H1 E.fuel64 _ m (C33_chunk_size _ _ _ _ _ hc).2.1 hH1.1 hH1.2 hE.codecs hmem
          r.stream (hs.toSOK (Nat.le_refl _)) (Prod.ext h.1 rfl)

theorem parseByType_err {E : Env ρ σ F} (hE : QuietEnv L E e) {S : Settings} {H : HandlerOps ρ σ F} {w : σ}
    (hH : LeavesParsing L H ∧ QuietAt L E.C H e w) (hmem : ∀ k, S.dataMaxMemory = some k → 0 ≤ k)
    {r r' : Req ρ σ F} {w'} (hs : SK L 39 r.stream) (hh : r.info.bind (·.headers) ≠ none)
    (hct : r.contentType ≠ none) (hb : r.bodyParsed = false)
    (h : parseByType E S H r w = (.error e, r', w')) :
    OwnExc e ∨ ForeignExc e ∨ (e = .diverge ∧ b!"base64" <:+: Py.lower (L.sc r.stream)) := by
  have own : e = .tooManyFieldsSent → OwnExc e ∨ ForeignExc e ∨
      (e = .diverge ∧ b!"base64" <:+: Py.lower (L.sc r.stream)) := by rintro rfl; simp [OwnExc]
  unfold parseByType at h
  split at h
  · rename_i hn; exact absurd hn hct
  · split at h
    · split at h
      · rename_i r1 w1 hp
        rcases hm : markError E.C S .multiPartParserError r1 with ⟨r2, e2⟩
        rw [hm] at h
        simp only [Prod.mk.injEq, Except.error.injEq] at h
        obtain ⟨rfl, -, -⟩ := h
        rcases markError_err hE.codecs hm with h | h
        · left; rw [h]; simp [OwnExc]
        · exact own h
      · rename_i hp
        simp only [Prod.mk.injEq, Except.error.injEq] at h
        obtain ⟨rfl, -, -⟩ := h
        exact parseFileUpload_err hE hH hmem hs hh hp
      · simp at h
    · split at h
      · split at h
        · rename_i hc
          simp only [Prod.mk.injEq, Except.error.injEq] at h
          obtain ⟨rfl, -, -⟩ := h
          left; rw [bodyCore_err hs hb hc]; simp [OwnExc]
        · split at h
          · rename_i hq
            simp only [Prod.mk.injEq, Except.error.injEq] at h
            obtain ⟨rfl, -, -⟩ := h
            exact own (queryDict_err hE.codecs hq)
          · simp at h
      · split at h
        · rename_i hq
          simp only [Prod.mk.injEq, Except.error.injEq] at h
          obtain ⟨rfl, -, -⟩ := h
          exact own (queryDict_err hE.codecs hq)
        · simp at h

theorem parseBodyStream_err {E : Env ρ σ F} (hE : QuietEnv L E e) {S : Settings} {H : HandlerOps ρ σ F} {w : σ}
    (hH : LeavesParsing L H ∧ QuietAt L E.C H e w) (ho : Oblivious L H) (hmem : ∀ k, S.dataMaxMemory = some k → 0 ≤ k)
    {r r' : Req ρ σ F} {w'} {k : Nat} (hk : k ≤ 37) (hs : SK L k r.stream) (hh : r.info.bind (·.headers) ≠ none)
    (hct : r.contentType ≠ none) (hb : r.bodyParsed = false) (hb' : r.body_ = none)
    (h : parseBodyStream E S H r w = (.error e, r', w')) :
    OwnExc e ∨ ForeignExc e ∨ (e = .diverge ∧ b!"base64" <:+: Py.lower (L.sc r.stream)) := by
  unfold parseBodyStream at h
  obtain ⟨s1, e1, a1, a2, -⟩ := hs.read (by omega) 1
  have e1' : r.stream.read (some 1) = (.ok ((L.sc r.stream).take 1), s1) := e1
  rw [e1'] at h
  simp only at h
  split at h
  · split at h
    · rename_i hq
      simp only [Prod.mk.injEq, Except.error.injEq] at h
      obtain ⟨rfl, -, -⟩ := h
      left; rw [queryDict_err hE.codecs hq]; simp [OwnExc]
    · simp at h
  · obtain ⟨s2, e2, b1, b2⟩ := a1.unget (by omega) ((L.sc r.stream).take 1)
    rw [e2] at h
    simp only at h
    have hsc : L.sc s2 = L.sc r.stream := by rw [b2, a2, List.take_append_drop]
    rcases hp : parseByType E S H { r with stream := s2 } w with ⟨(y | _), r3, w3⟩
    · rw [hp] at h
      simp only [Prod.mk.injEq, Except.error.injEq] at h
      obtain ⟨rfl, -, -⟩ := h
      have := parseByType_err hE hH hmem (r := { r with stream := s2 }) (b1.mono (by omega)) hh hct hb hp
      rw [hsc] at this
      exact this
    · rw [hp] at h
      simp only at h
      obtain ⟨c1, c2⟩ := parseByType_ends hE.oblivious S ho (r := { r with stream := s2 }) (b1.mono (by omega)) hb' hp
      have hf := parseByType_frame E S H { r with stream := s2 } w
      rw [hp] at hf
      unfold finishBody at h
      rcases hc : bodyCore S r3 with ⟨(z | b), r5⟩
      · rw [hc] at h
        simp only [Prod.mk.injEq, Except.error.injEq] at h
        obtain ⟨rfl, -, -⟩ := h
        left; rw [bodyCore_err c1 (hf.bodyParsed.trans hb) hc]; simp [OwnExc]
      · rw [hc] at h
        simp only at h
        cases hd : decodeBody E.C S b with
        | ok u => rw [hd] at h; simp at h
        | error x =>
          rw [hd] at h
          simp only [Prod.mk.injEq, Except.error.injEq] at h
          obtain ⟨rfl, -, -⟩ := h
          unfold decodeBody at hd
          split at hd
          · exact absurd hd (hE.codecs.decode _ _)
          · split at hd
            · exact absurd hd (hE.codecs.decode _ _)
            · simp only [Except.error.injEq] at hd
              subst hd; simp [ForeignExc]

omit [Producer ρ] in
theorem applyHeader_filled {E : Env ρ σ F} {header : Bytes} {S S' : Settings} {r r' : Req ρ σ F}
    (h : applyHeader E header S r = (.ok (), S', r')) :
    r'.info.bind (·.headers) ≠ none ∧ r'.contentType ≠ none := by
  unfold applyHeader at h
  split at h
  · simp at h
  split at h
  · simp at h
  split at h
  · simp at h
  simp only at h
  split at h
  · simp at h
  · rename_i hp
    have hct : ∀ {h : MVD Bytes} {S S1 : Settings} {r r1 : Req ρ σ F},
        applyContentType E.C h S r = (.ok (), S1, r1) → r1.contentType ≠ none := by
      intro h S S1 r r1 hp
      unfold applyContentType at hp
      split at hp
      · simp only [Prod.mk.injEq] at hp; rw [← hp.2.2]; simp
      split at hp
      · simp at hp
      · simp only at hp
        split at hp
        · simp only [Prod.mk.injEq] at hp; rw [← hp.2.2]; simp
        · simp only [Req.setEncoding, Prod.mk.injEq] at hp; rw [← hp.2.2]; simp
    have := hct hp
    unfold applyQuery at h
    split at h
    · simp at h
    · simp only at h
      split at h
      · simp at h
      · simp only [Prod.mk.injEq] at h
        rw [← h.2.2]
        exact ⟨by simp, this⟩

/-- **C108, the complete list.**  Whatever bytes arrive, `parse()` of a new request either returns, or raises one
of the exceptions that the package defines for this, or one of `ForeignExc` — or it does not terminate, and then
the text `base64` occurs in what was sent.  Apart from this only an exception of the codecs or of the upload handlers
(or of loading them) is possible.  For every way in which the bytes arrive. -/
theorem C108_exceptions_partial (L : Lawful ρ) {E : Env ρ σ F} {S S' : Settings} (hS : 1 ≤ S.maxHeaderSize)
    (hmem : ∀ k, S.dataMaxMemory = some k → 0 ≤ k) {p : ρ} (hI : L.Inv p) {r r' : Req ρ σ F}
    (hr : Req.new E.C S p = .ok r) {w w' : σ} {e : Exc} (hE : QuietEnv L E e)
    (h : parseRequest E S r w = (.error e, S', r', w')) :
    OwnExc e ∨ ForeignExc e ∨ (e = .diverge ∧ b!"base64" <:+: Py.lower (L.content p)) := by
  have key : r.stream = LazyStream.mk' p ∧ r.bodyParsed = false ∧ r.body_ = none ∧ r.headerParsed = false ∧
      r.info ≠ none := by
    unfold Req.new Req.reInit at hr
    cases hq : queryDict E.C S none true with
    | error e => rw [hq] at hr; cases hr
    | ok q =>
      rw [hq] at hr
      cases hr
      exact ⟨rfl, rfl, rfl, rfl, by simp⟩
  obtain ⟨k1, k2, k3, k4, k5⟩ := key
  have hc : L.sc r.stream = L.content p := by rw [k1]; rfl
  unfold parseRequest at h
  rcases parseRequestHeader_spec (L := L) (k := 0) (by omega) E S hS r k4
      (by rw [k1]; exact SK.fresh L p hI) with ⟨j, s1, a1, a2, a3, a4⟩ | ⟨_, s1, a2, _⟩
  · rw [a2] at h
    obtain ⟨f1, f2⟩ := applyHeader_frame E ((L.sc r.stream).take j) S { r with stream := s1, headerParsed := true }
    rcases ha : applyHeader E ((L.sc r.stream).take j) S { r with stream := s1, headerParsed := true } with
      ⟨(x | _), S1, r1⟩
    · rw [ha] at h
      simp only [Prod.mk.injEq, Except.error.injEq] at h
      obtain ⟨rfl, -, -⟩ := h
      rcases applyHeader_err (r := { r with stream := s1, headerParsed := true }) hE.codecs k5 ha with h | h
      · exact .inl h
      · exact .inr (.inl h)
    · obtain ⟨g1, g2⟩ := applyHeader_filled ha
      rw [ha] at h f1 f2
      simp only [Prod.mk.injEq] at h
      have hmem1 : ∀ k, S1.dataMaxMemory = some k → 0 ≤ k := by
        intro k hk
        have : S1.dataMaxMemory = S.dataMaxMemory := by
          have := f2
          unfold SameButCharset at this
          simp only at this
          rw [this]
        exact hmem k (this ▸ hk)
      rcases hb : parseRequestBody E S1 r1 w with ⟨x, r2, w2⟩
      rw [hb] at h
      simp only at h
      obtain ⟨rfl, -, -⟩ := h
      unfold parseRequestBody at hb
      rw [if_neg (by rw [f1.bodyParsed]; simp [k2])] at hb
      rcases hl : E.load w with ⟨(z | H), w1⟩
      · rw [hl] at hb
        simp only [Prod.mk.injEq, Except.error.injEq] at hb
        exact absurd (by rw [hl, hb.1]) (hE.load w)
      · rw [hl] at hb
        simp only at hb
        rw [if_neg (by rw [f1.headerParsed]; simp)] at hb
        have hsc : L.sc r1.stream = (L.content p).drop (j + 4) := by rw [f1.stream, a4, hc]
        rcases parseBodyStream_err hE (hE.handlers _ _ _ hl) (hE.oblivious _ _ _ hl) hmem1
          (r := { r1 with handlers := some H }) (k := 2) (by omega) (f1.stream ▸ a3) g1 g2
          (f1.bodyParsed.trans k2) (by
            rcases f1.body_ with h | h
            · exact h.trans k3
            · exact h) hb with h | h | ⟨h, hx⟩
        · exact .inl h
        · exact .inr (.inl h)
        · refine .inr (.inr ⟨h, hx.trans ?_⟩)
          have : L.sc ({ r1 with handlers := some H } : Req ρ σ F).stream = (L.content p).drop (j + 4) := hsc
          rw [this]
          unfold Py.lower
          rw [List.map_drop]
          exact (List.drop_suffix _ _).isInfix
  · rw [a2] at h
    simp only [Prod.mk.injEq, Except.error.injEq] at h
    left; rw [← h.1]; simp [OwnExc]

end
/-- The hypotheses are met by the handlers of the package, whichever are named in the settings and in whatever state
they are, and a complete codec. -/
theorem C108_builtin_partial (up : List UStr) (mods : Modules (Except Exc Builtin)) (names : List Bytes) (fuel64 : Nat)
    {hs : List Builtin} (hl : loadHandlers mods names = .ok hs) {S S' : Settings} (hS : 1 ≤ S.maxHeaderSize)
    (hmem : ∀ k, S.dataMaxMemory = some k → 0 ≤ k) (chunks : List Bytes) {r r' : Req Source BWorld Uploaded}
    (hr : Req.new latinCodecs S ⟨chunks⟩ = .ok r) {w w' : BWorld} {e : Exc}
    (h : parseRequest (namedEnv Source latinCodecs up goodOs mods names fuel64) S r w = (.error e, S', r', w')) :
    OwnExc e ∨ ForeignExc e ∨ (e = .diverge ∧ b!"base64" <:+: Py.lower chunks.flatten) := by
  by_cases hf : ForeignExc e
  · exact .inr (.inl hf)
  simp only [ForeignExc, not_or] at hf
  obtain ⟨f1, f2, f3, f4, f5, f6⟩ := hf
  have hload : ∀ w, (namedEnv Source latinCodecs up goodOs mods names fuel64).load w =
      (.ok (builtinOps Source goodOs hs.length), { w with hs := hs }) := by
    intro w; simp only [namedEnv, hl]
  refine C108_exceptions_partial Source.lawful (E := namedEnv Source latinCodecs up goodOs mods names fuel64) hS hmem
    (p := ⟨chunks⟩) trivial hr ⟨latin_avoids f2 f3, fun w => by rw [hload]; simp, fun w H w' h => ?_,
      namedEnv_oblivious Source.lawful latinCodecs up goodOs mods names fuel64⟩ h
  rw [hload] at h
  simp only [Prod.mk.injEq, Except.ok.injEq] at h
  rw [← h.1, ← h.2]
  refine ⟨builtin_leaves _ _ _, ?_⟩
  by_cases he : e = .indexError
  · right
    intro S m fuel64 input hmem hc hi hx
    subst he
    exact builtin_no_index latinCodecs (fun b => latin_avoids (by simp) (by simp)) S goodOs
      (by rintro e ⟨x, hx⟩; cases hx) (by rintro ⟨x, hx⟩; cases hx) fuel64 m hc hmem hs w.heap input hi
      (latin_avoids (by simp) (by simp)) (Prod.ext hx rfl)
  · exact .inl (builtin_avoids (by simp [goodOs]) f6 f1 he)

/-- A request with the given header lines and body. -/
def robustPost (lines body : Bytes) : Bytes := b!"POST http://h/ HTTP/1.1\r\n" ++ lines ++ b!"\r\n\r\n" ++ body

/-- The exception that `parse()` raises on the given bytes, with one in-memory handler. -/
def robustRaised (bytes : Bytes) : Option Exc :=
  let E : Env Source BWorld Uploaded :=
    { C := twoCodecs, up := [], load := fun w => (.ok (builtinOps Source goodOs 1), { w with hs := [.memory {}] }), fuel64 := 50 }
  match Req.new E.C {} ⟨[bytes]⟩ with
  | .error e => some e
  | .ok r =>
    match (parseRequest E {} r { hs := [] }).1 with
    | .error e => some e
    | .ok () => none

/-- A form with one part that has the given header and content. -/
def robustPart (disp content : Bytes) : Bytes :=
  robustPost b!"Content-Type: multipart/form-data; boundary=B\r\nContent-Length: 100"
    (b!"--B\r\nContent-Disposition: form-data; " ++ disp ++ b!"\r\n\r\n" ++ content ++ b!"\r\n--B--")

/-- **C108 is false of the code**: each of the other exceptions of the list is raised by some request, and so is
`LookupError` (by the codec of a charset that does not exist). -/
theorem C108_refuted :
    robustRaised (robustPost b!"A: \xe9" []) = some .unicodeDecodeError ∧
    robustRaised b!"GET http://[h/ HTTP/1.1\r\nA: b\r\n\r\n" = some .valueError ∧
    robustRaised (robustPost b!"Content-Type: multipart/form-data" b!"x") = some .attributeError ∧
    robustRaised (robustPart b!"name=\"a\"\r\nContent-Transfer-Encoding: base64" b!"abc") = some .typeError ∧
    robustRaised (robustPart b!"name*=UTF-8''%E9" b!"x") = some .unicodeEncodeError ∧
    robustRaised (robustPart b!"name=\"a\"; filename=\"&#99999999999999999999;\"" b!"x") = some .overflowError ∧
    robustRaised (robustPost b!"Content-Type: text/plain; charset=nope" b!"x") = some .lookupError := by
  decide +kernel

/-- Ordinary requests raise nothing. -/
example : robustRaised (robustPart b!"name=\"a\"" b!"abc") = none ∧ robustRaised (robustPost b!"A: b" []) = none := by decide +kernel

end Verif
