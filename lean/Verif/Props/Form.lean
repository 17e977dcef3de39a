import Verif.Proofs.MVDict
import Verif.Proofs.BuiltinStores
import Verif.Props.Entry
/-!
# Forms come back as they were sent (C18, C19)
-/

namespace Verif
open Spec

theorem fields_lookup (its : List FormItem) (n : Bytes) :
    Dict.get? ((fieldsOf its).foldl (fun d p => MVD.append d p.1 (plainItem p.2)) []) n =
      if (fieldsOf its).filter (fun p => p.1 = n) = [] then none
      else some (((fieldsOf its).filter (fun p => p.1 = n)).map (fun p => plainItem p.2)) := by
  have := get?_foldl_append (fieldsOf its) Prod.fst (fun p => plainItem p.2) n []
  have hn : Dict.get? ([] : MVD PostItem) n = none := rfl
  simpa [hn] using this

section
variable {ρ σ F : Type} [Producer ρ] {L : Lawful ρ} {H : HandlerOps ρ σ F}
  {Ready : σ → List (Bytes × F × Bytes) → Prop}
  {Busy : σ → List Nat → List (Bytes × F × Bytes) → Bytes → Bytes → Prop}

theorem parse_form_stream (C : Codecs) (S : Settings) (fuel64 : Nat) (m : MultiPart) (hc : 1 ≤ m.chunkSize)
    (hl : m.contentLength ≠ 0) (h13 : 13 ∉ m.boundary) {pre : Option Bytes} {epi : Bytes}
    (ha : Around m.boundary pre epi) (hq : emptyQueryDict C S = .ok ())
    (hcs : ∀ n, (∀ c ∈ n, c < 128) → C.strEncode S.defaultCharset n = .ok n)
    (its : List FormItem) (hok : ∀ it ∈ its, it.Ok m.boundary) (hlim : InLimits S its)
    (hs : filesOf its ≠ [] → Stores H Ready Busy)
    (hfin : ∀ w done, Ready w done → ∃ w', uploadCompleteLoop H (List.range H.count) w = (.ok (), w') ∧ Ready w' done)
    (input : LazyStream ρ) (hi : SOK L input) (hin : L.sc input = renderForm m.boundary its pre epi) (w w1 : σ)
    (hraw : rawInputLoop H { contentLength := m.contentLength, boundary := m.boundary, settings := S }
      (List.range H.count) input w = (.ok none, input, w1)) (hw : Ready w1 []) :
    ∃ made : Made F, ∃ s' w', m.parse C S H fuel64 input w =
        (.ok ((fieldsOf its).foldl (fun d p => MVD.append d p.1 (plainItem p.2)) [], made.dict), s', w') ∧
      made.map Prod.fst = filesOf its ∧ Ready w' made.done ∧ L.Inv s'.producer ∧ L.sc s' = [] := by
  rcases parse_spec C S H fuel64 m hc hl input input w w1 hraw hi with
    ⟨e, h1, _⟩ | ⟨_, r, D', st', s', R, w', h1, h2, h3, h4⟩
  · rw [hq] at h1; simp at h1
  · rw [hin] at h2
    obtain ⟨rfl, hI⟩ := Parses.renderForm C S fuel64 hcs h13 ha its hs w1 hok hlim hw h2
    obtain ⟨made, f1, f2, f3⟩ := hI.files
    obtain ⟨w2, u1, u2⟩ := hfin _ _ f3
    refine ⟨made, s', w', ?_, f1, ?_, (h4 rfl).2.2, (h4 rfl).2.1⟩
    · rw [h1]
      simp only [endParse, u1] at h3
      simp only [Prod.mk.injEq] at h3
      rw [← h3.1, hI.fields.post, f2]
    · simp only [endParse, u1] at h3
      simp only [Prod.mk.injEq] at h3
      rw [← h3.2]; exact u2

theorem parse_form (C : Codecs) (S : Settings) (fuel64 : Nat) (m : MultiPart) (hc : 1 ≤ m.chunkSize)
    (hl : m.contentLength ≠ 0) (h13 : 13 ∉ m.boundary) {pre : Option Bytes} {epi : Bytes}
    (ha : Around m.boundary pre epi) (hq : emptyQueryDict C S = .ok ())
    (hcs : ∀ n, (∀ c ∈ n, c < 128) → C.strEncode S.defaultCharset n = .ok n)
    (its : List FormItem) (hok : ∀ it ∈ its, it.Ok m.boundary) (hlim : InLimits S its)
    (hs : filesOf its ≠ [] → Stores H Ready Busy)
    (hfin : ∀ w done, Ready w done → ∃ w', uploadCompleteLoop H (List.range H.count) w = (.ok (), w') ∧ Ready w' done)
    (input : LazyStream ρ) (hi : SOK L input) (hin : L.sc input = renderForm m.boundary its pre epi) (w w1 : σ)
    (hraw : rawInputLoop H { contentLength := m.contentLength, boundary := m.boundary, settings := S }
      (List.range H.count) input w = (.ok none, input, w1)) (hw : Ready w1 []) :
    ∃ made : Made F, ∃ s' w', m.parse C S H fuel64 input w =
        (.ok ((fieldsOf its).foldl (fun d p => MVD.append d p.1 (plainItem p.2)) [], made.dict), s', w') ∧
      made.map Prod.fst = filesOf its ∧ Ready w' made.done := by
  obtain ⟨made, s', w', h1, h2, h3, _⟩ := parse_form_stream C S fuel64 m hc hl h13 ha hq hcs its hok hlim hs hfin
    input hi hin w w1 hraw hw
  exact ⟨made, s', w', h1, h2, h3⟩

/-- **C18.** A form without files comes back as it was sent: looking up a name in the result
gives exactly the values sent under this name, in order, byte for byte; names that were not sent
are not there; there are no files.  For every list of fields, boundary, chunk size, way of
receiving the body in pieces, position in a stream with history, and every upload handlers that
leave the body to the parser.  A preamble and an epilogue without separator and empty line are
ignored. -/
theorem C18_fields (C : Codecs) (S : Settings) (fuel64 : Nat) (m : MultiPart) (hc : 1 ≤ m.chunkSize)
    (hl : m.contentLength ≠ 0) (h13 : 13 ∉ m.boundary) {pre : Option Bytes} {epi : Bytes}
    (ha : Around m.boundary pre epi) (hq : emptyQueryDict C S = .ok ())
    (hcs : ∀ n, (∀ c ∈ n, c < 128) → C.strEncode S.defaultCharset n = .ok n)
    (its : List FormItem) (hok : ∀ it ∈ its, it.Ok m.boundary) (hlim : InLimits S its)
    (hf : filesOf its = [])
    (hfin : ∀ w, (uploadCompleteLoop H (List.range H.count) w).1 = .ok ())
    (input : LazyStream ρ) (hi : SOK L input) (hin : L.sc input = renderForm m.boundary its pre epi) (w w1 : σ)
    (hraw : rawInputLoop H { contentLength := m.contentLength, boundary := m.boundary, settings := S }
      (List.range H.count) input w = (.ok none, input, w1)) :
    ∃ post s' w', m.parse C S H fuel64 input w = (.ok (post, []), s', w') ∧
      ∀ n, Dict.get? post n = if (fieldsOf its).filter (fun p => p.1 = n) = [] then none
        else some (((fieldsOf its).filter (fun p => p.1 = n)).map (fun p => plainItem p.2)) := by
  obtain ⟨made, s', w', h1, h2, _⟩ := parse_form (Ready := fun _ _ => True) (Busy := fun _ _ _ _ _ => True)
    C S fuel64 m hc hl h13 ha hq hcs its hok hlim (fun h => absurd hf h)
    (fun w done _ => ⟨_, Prod.ext (hfin w) rfl, trivial⟩) input hi hin w w1 hraw trivial
  rw [hf, List.map_eq_nil_iff] at h2
  subst h2
  exact ⟨_, s', w', h1, fields_lookup its⟩

end

/-! ### Files -/

/-- Some handler takes files: a temporary-file handler, an `ConvenientFileUploadHandler`, or an
in-memory handler for a request small enough. -/
def Takes (S : Settings) (contentLength : Nat) (hs : List Builtin) : Prop :=
  (∃ b ∈ hs, match b with
    | .memory _ => (contentLength : Int) ≤ S.fileMaxMemory
    | .temp _ => True
    | .conv _ => True) ∧
  (∀ h, .conv h ∈ hs → h.switched = false → 0 ≤ S.fileMaxMemory)

theorem rawInputLoop_builtin {ρ : Type} (os : Os) (N : Nat) (a : RawArgs) (s : LazyStream ρ) (heap : Heap) :
    ∀ (post pre : List Builtin),
    rawInputLoop (builtinOps ρ os N) a (List.range' pre.length post.length) s ⟨pre ++ post, heap⟩ =
      (.ok none, s, ⟨pre ++ post.map (Builtin.rawInput a), heap⟩) := by
  intro post
  induction post with
  | nil => intro pre; simp [rawInputLoop]
  | cons b post ih =>
    intro pre
    rw [List.length_cons, List.range'_succ, rawInputLoop]
    have e : (builtinOps ρ os N).rawInput pre.length a s ⟨pre ++ b :: post, heap⟩ =
        (.ok none, s, ⟨pre ++ b.rawInput a :: post, heap⟩) := by
      simp only [builtinOps]
      rw [BWorld.on_mid]
    rw [e]
    have := ih (pre ++ [b.rawInput a])
    simpa using this

theorem first_accepting {N : Nat} : ∀ hs : List Builtin, hs.length = N → (∀ b ∈ hs, b.Init) →
    (∃ b ∈ hs, ¬ b.Inactive) → ∃ mid b post, Handlers N hs mid b post := by
  intro hs hN hI hA
  suffices h : ∃ mid b post, hs = mid ++ b :: post ∧ (∀ x ∈ mid, x.Inactive) ∧ ¬ b.Inactive by
    obtain ⟨mid, b, post, rfl, h1, h2⟩ := h
    exact ⟨mid, b, post, rfl, hN, fun x hx => ⟨hI x (by simp [hx]), h1 x hx⟩, ⟨hI b (by simp), h2⟩,
      fun x hx => hI x (by simp [hx])⟩
  clear hN hI
  induction hs with
  | nil => obtain ⟨b, h, _⟩ := hA; simp at h
  | cons x hs ih =>
    by_cases hx : x.Inactive
    · obtain ⟨b, hb, hb2⟩ := hA
      rcases List.mem_cons.1 hb with rfl | hb
      · exact absurd hx hb2
      · obtain ⟨mid, b, post, rfl, h1, h2⟩ := ih ⟨b, hb, hb2⟩
        refine ⟨x :: mid, b, post, rfl, ?_, h2⟩
        intro y hy
        rcases List.mem_cons.1 hy with rfl | hy
        · exact hx
        · exact h1 y hy
    · exact ⟨[], x, hs, rfl, by simp, hx⟩

theorem Takes.ready {S : Settings} {len : Nat} {hs : List Builtin} (h : Takes S len hs) (bd : Bytes) (heap : Heap) :
    BReady hs.length ⟨hs.map (Builtin.rawInput ⟨len, bd, S⟩), heap⟩ [] := by
  refine ⟨first_accepting _ (by simp) ?_ ?_, (by simp [Stored])⟩
  · intro b hb
    obtain ⟨x, hx, rfl⟩ := List.mem_map.1 hb
    cases x with
    | memory m => simp [Builtin.rawInput, Builtin.Init, MemoryH.rawInput]
    | temp t => simp [Builtin.rawInput, Builtin.Init]
    | conv c =>
      have := h.2 c hx
      simp only [Builtin.rawInput, Builtin.Init, ConvH.rawInput]
      cases hsw : c.switched with
      | true => simp [hsw]
      | false => simp [hsw, MemoryH.rawInput, this hsw]
  · obtain ⟨b, hb, hm⟩ := h.1
    refine ⟨b.rawInput ⟨len, bd, S⟩, List.mem_map.2 ⟨b, hb, rfl⟩, ?_⟩
    cases b with
    | memory m => simp only at hm; simp [Builtin.rawInput, Builtin.Inactive, MemoryH.rawInput, hm]
    | temp t => exact fun h => h
    | conv c => exact fun h => h

theorem rfindChar_absent {c : UInt8} : ∀ {s : Bytes}, c ∉ s → Py.rfindChar c s = none
  | [], _ => rfl
  | x :: s, h => by
    simp only [List.mem_cons, not_or] at h
    simp [Py.rfindChar, rfindChar_absent h.2, Ne.symm h.1]

theorem setName_id {n : Bytes} (h : 47 ∉ n) (hl : n.length ≤ 255) : setName n = n := by
  have : Py.basename n = n := by
    unfold Py.basename
    rw [rfindChar_absent h]
  unfold setName
  rw [this]
  simp; omega

/-- An uploaded file object has the given name and size, and the file it refers to is open, holds
`content` and stands at its beginning. -/
structure Holds (heap : Heap) (fileName content : Bytes) (f : Uploaded) : Prop where
  name : f.name = fileName
  size : f.size = content.length
  data : heap[f.ref]? = some { data := content, pos := 0, closed := false }

theorem Made.keys_nodup {F : Type} (made : Made F) : (Dict.keys made.dict).Nodup := by
  unfold Made.dict
  suffices h : ∀ d : MVD F, (Dict.keys d).Nodup →
      (Dict.keys (made.foldl (fun d p => MVD.append d p.1.1 p.2) d)).Nodup from h [] (by simp [Dict.keys])
  induction made with
  | nil => exact fun d h => h
  | cons p made ih => exact fun d h => ih _ (Dict.keys_set_nodup h _ _)

theorem form_files {ρ : Type} [Producer ρ] {L : Lawful ρ} (C : Codecs) (S : Settings) (os : Os)
    (hos : ∀ e, os.tempFile e = .ok ()) (fuel64 : Nat) (m : MultiPart) (hc : 1 ≤ m.chunkSize)
    (hl : m.contentLength ≠ 0) (h13 : 13 ∉ m.boundary) {pre : Option Bytes} {epi : Bytes}
    (ha : Around m.boundary pre epi) (hq : emptyQueryDict C S = .ok ())
    (hcs : ∀ n, (∀ c ∈ n, c < 128) → C.strEncode S.defaultCharset n = .ok n)
    (its : List FormItem) (hok : ∀ it ∈ its, it.Ok m.boundary) (hlim : InLimits S its)
    (hs : List Builtin) (heap : Heap) (ht : Takes S m.contentLength hs)
    (input : LazyStream ρ) (hi : SOK L input) (hin : L.sc input = renderForm m.boundary its pre epi) :
    ∃ post files s' w', m.parse C S (builtinOps ρ os hs.length) fuel64 input ⟨hs, heap⟩ =
        (.ok (post, files), s', w') ∧
      (∀ n, Dict.get? post n = if (fieldsOf its).filter (fun p => p.1 = n) = [] then none
        else some (((fieldsOf its).filter (fun p => p.1 = n)).map (fun p => plainItem p.2))) ∧
      (L.Inv s'.producer ∧ L.sc s' = []) ∧
      (∃ fs : List Uploaded, List.Forall₂ (fun p f => Holds w'.heap p.2.1 p.2.2 f) (filesOf its) fs ∧
        (fs.map Uploaded.ref).Nodup ∧ (Dict.keys files).Nodup ∧ ∀ n, Dict.get? files n =
          if ((filesOf its).zip fs).filter (fun p => p.1.1 = n) = [] then none
          else some ((((filesOf its).zip fs).filter (fun p => p.1.1 = n)).map Prod.snd)) := by
  have hraw := rawInputLoop_builtin (ρ := ρ) os hs.length ⟨m.contentLength, m.boundary, S⟩ input heap hs []
  simp only [List.length_nil, List.nil_append, ← List.range_eq_range'] at hraw
  obtain ⟨made, s', w', h1, h2, h3, h4⟩ := parse_form_stream (L := L) C S fuel64 m hc hl h13 ha hq hcs its hok hlim
    (fun _ => builtin_stores (ρ := ρ) hos hs.length) (builtin_stores (ρ := ρ) hos hs.length).finishes
    input hi hin ⟨hs, heap⟩ _ hraw (ht.ready _ _)
  refine ⟨_, _, s', w', h1, fields_lookup its, h4, made.map Prod.snd, ?_, ?_, ?_, ?_⟩
  · have key : ∀ p ∈ made, Holds w'.heap p.1.2.1 p.1.2.2 p.2 := by
      intro p hp
      have hp2 : p.1 ∈ filesOf its := by rw [← h2]; exact List.mem_map.2 ⟨p, hp, rfl⟩
      obtain ⟨it, hit, hit2⟩ := List.mem_filterMap.1 hp2
      obtain ⟨a1, a2, a3⟩ := h3.2.1 (p.1.2.1, p.2, p.1.2.2) (List.mem_map.2 ⟨p, hp, rfl⟩)
      refine ⟨?_, a1, a3⟩
      cases it with
      | field => simp at hit2
      | file n fn ct c =>
        obtain ⟨_, _, _, _, _, k6, k7, _⟩ := (hok _ hit).kind
        simp only [Option.some.injEq] at hit2
        simp only [← hit2] at a2 ⊢
        rw [a2, setName_id (fun h => (k7 47 h).2.2.1 rfl) k6]
    rw [← h2]
    clear h1 h2 h3 h4
    induction made with
    | nil => exact .nil
    | cons p made ih =>
      exact .cons (key p (by simp)) (ih (fun q hq => key q (by simp [hq])))
  · have := h3.2.2
    simpa [Made.done, Function.comp_def] using this
  · exact made.keys_nodup
  · intro n
    have hz : (filesOf its).zip (made.map Prod.snd) = made := by
      rw [← h2]
      clear h1 h2 h3 h4
      induction made with
      | nil => rfl
      | cons p made ih => simp [ih]
    rw [hz]
    have := get?_foldl_append made (fun p => p.1.1) Prod.snd n []
    have hn : Dict.get? ([] : MVD Uploaded) n = none := rfl
    simpa [hn, Made.dict] using this

/-- **C19.** Fields and non-empty files of a form come back as they were sent, whatever built-in
handlers are installed as long as one of them takes files: `FILES` has, under each name, the
files sent under it in order, each with its name, its size and its bytes, ready to be read from
the start, and no two of them share the underlying file.  For every content, chunk size, memory limit, way of receiving the body in pieces, and
whatever the handlers did before; with preamble and epilogue as in C18. -/
theorem C19_files {ρ : Type} [Producer ρ] {L : Lawful ρ} (C : Codecs) (S : Settings) (os : Os)
    (hos : ∀ e, os.tempFile e = .ok ()) (fuel64 : Nat) (m : MultiPart) (hc : 1 ≤ m.chunkSize)
    (hl : m.contentLength ≠ 0) (h13 : 13 ∉ m.boundary) {pre : Option Bytes} {epi : Bytes}
    (ha : Around m.boundary pre epi) (hq : emptyQueryDict C S = .ok ())
    (hcs : ∀ n, (∀ c ∈ n, c < 128) → C.strEncode S.defaultCharset n = .ok n)
    (its : List FormItem) (hok : ∀ it ∈ its, it.Ok m.boundary) (hlim : InLimits S its)
    (hs : List Builtin) (heap : Heap) (ht : Takes S m.contentLength hs)
    (input : LazyStream ρ) (hi : SOK L input) (hin : L.sc input = renderForm m.boundary its pre epi) :
    ∃ post files s' w', m.parse C S (builtinOps ρ os hs.length) fuel64 input ⟨hs, heap⟩ =
        (.ok (post, files), s', w') ∧
      (∀ n, Dict.get? post n = if (fieldsOf its).filter (fun p => p.1 = n) = [] then none
        else some (((fieldsOf its).filter (fun p => p.1 = n)).map (fun p => plainItem p.2))) ∧
      ∃ fs : List Uploaded, List.Forall₂ (fun p f => Holds w'.heap p.2.1 p.2.2 f) (filesOf its) fs ∧
        (fs.map Uploaded.ref).Nodup ∧ (Dict.keys files).Nodup ∧ ∀ n, Dict.get? files n =
          if ((filesOf its).zip fs).filter (fun p => p.1.1 = n) = [] then none
          else some ((((filesOf its).zip fs).filter (fun p => p.1.1 = n)).map Prod.snd) := by
  obtain ⟨post, files, s', w', h1, h2, _, h3⟩ := form_files (L := L) C S os hos fuel64 m hc hl h13 ha hq hcs its hok
    hlim hs heap ht input hi hin
  exact ⟨post, files, s', w', h1, h2, h3⟩

end Verif

/-! ### A form that meets the hypotheses -/

namespace Verif
open Spec

/-- A text field with a quote in its name, a file, the field again. -/
def sampleForm : List FormItem :=
  [.field b!"a\"b" b!"x\r\n--", .file b!"up" b!"n.txt" b!"text/plain" b!"\r\n--0\r\ndata", .field b!"a\"b" []]

theorem separable_of_no_semicolon {ps : List (Bytes × Bytes)} (h1 : ∀ p ∈ ps, 59 ∉ p.2)
    (h2 : ∀ p ∈ ps.dropLast, quotes p.2 % 2 = 0) : Separable ps :=
  ⟨fun p hp a b hab => absurd (by rw [hab]; simp) (h1 p hp), h2⟩

theorem sampleForm_ok : ∀ it ∈ sampleForm, it.Ok b!"=_Bd'1" := by
  intro it hit
  simp only [sampleForm, List.mem_cons, List.not_mem_nil, or_false] at hit
  rcases hit with rfl | rfl | rfl
  · exact ⟨by decide +kernel, by decide +kernel, by decide +kernel, by decide +kernel,
      by decide +kernel, separable_of_no_semicolon (by decide +kernel) (by decide +kernel)⟩
  · exact ⟨by decide +kernel, by decide +kernel, by decide +kernel, by decide +kernel,
      by decide +kernel, separable_of_no_semicolon (by decide +kernel) (by decide +kernel), by decide +kernel,
      by decide +kernel, by decide +kernel, by decide +kernel, by decide +kernel, by decide +kernel⟩
  · exact ⟨by decide +kernel, by decide +kernel, by decide +kernel, by decide +kernel,
      by decide +kernel, separable_of_no_semicolon (by decide +kernel) (by decide +kernel)⟩

theorem sampleAround : Around b!"=_Bd'1" (some b!"hello\r\n") b!"\r\nbye\r\n--=_Bd" :=
  ⟨by intro p h; cases h; decide +kernel, by intro p h; cases h; decide +kernel, by intro p h; cases h; decide,
    by decide +kernel, by decide +kernel⟩

example : InLimits { maxFields := some 2, dataMaxMemory := some 16 } sampleForm :=
  ⟨by intro n h; simp at h; subst h; decide, by intro n h; simp at h; subst h; decide⟩

example : Takes { fileMaxMemory := 3 } 1000 [.memory {}, .conv {}] := by
  refine ⟨⟨.conv {}, by simp, trivial⟩, ?_⟩
  intro h hh _; decide

/-- The hypotheses of C19 can be met for every chunk size and cutting of the body. -/
example (k : Nat) (hk : 1 ≤ k) (cs : List Bytes) 
    (h : cs.flatten = renderForm b!"=_Bd'1" sampleForm (some b!"hello\r\n") b!"\r\nbye\r\n--=_Bd") :=
  C19_files (L := Source.lawful) latinCodecs {} goodOs (fun _ => rfl) 0 ⟨b!"=_Bd'1", k, 1000⟩ hk (by simp) (by simp)
    sampleAround rfl (fun n hn => by
      have : Py.isAscii n = true := by simpa [Py.isAscii] using hn
      simp [latinCodecs, this]) sampleForm sampleForm_ok
    ⟨by intro n h; simp at h; subst h; decide, by intro n h; simp at h; subst h; decide⟩
    [.memory {}, .conv {}] [] ⟨⟨.conv {}, by simp, trivial⟩, by intro h hh _; decide⟩
    (LazyStream.mk' ⟨cs⟩) (SOK.fresh cs) (by rw [sc_fresh]; exact h)

end Verif
