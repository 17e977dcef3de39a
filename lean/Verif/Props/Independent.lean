import Verif.Props.Convenient
/-!
# What the result depends on (C26, C27, C28)
-/

namespace Verif
open Spec

/-- What a program can see of an uploaded file: name, size, content. -/
def Uploaded.view (heap : Heap) (f : Uploaded) : Bytes × Nat × Option Bytes :=
  (f.name, f.size, heap[f.ref]?.bind (fun o => o.readAll.toOption.map Prod.fst))

/-- The visible result: `POST`, and `FILES` with the visible part of each file. -/
def viewOf (r : Except Exc (MVD PostItem × MVD Uploaded)) (heap : Heap) :
    Except Exc (MVD PostItem × MVD (Bytes × Nat × Option Bytes)) :=
  r.map (fun p => (p.1, p.2.map (fun q => (q.1, q.2.map (Uploaded.view heap)))))

/-- What the form should give. -/
def formView (its : List FormItem) : MVD PostItem × MVD (Bytes × Nat × Option Bytes) :=
  ((fieldsOf its).foldl (fun d p => MVD.append d p.1 (plainItem p.2)) [],
   (filesOf its).foldl (fun d p => MVD.append d p.1 (p.2.1, p.2.2.length, some p.2.2)) [])

theorem append_map {α β : Type} (g : α → β) (d : MVD α) (n : Bytes) (x : α) :
    (MVD.append d n x).map (fun q => (q.1, q.2.map g)) =
      MVD.append (d.map (fun q => (q.1, q.2.map g))) n (g x) := by
  have hg : ∀ d : MVD α, Dict.get? (d.map (fun q => (q.1, q.2.map g))) n = (Dict.get? d n).map (·.map g) := by
    intro d
    induction d with
    | nil => rfl
    | cons p d ih =>
      simp only [List.map_cons, Dict.get?]
      split
      · rfl
      · exact ih
  have hset : ∀ (d : MVD α) (v : List α), (Dict.set d n v).map (fun q => (q.1, q.2.map g)) =
      Dict.set (d.map (fun q => (q.1, q.2.map g))) n (v.map g) := by
    intro d v
    induction d with
    | nil => rfl
    | cons p d ih =>
      simp only [List.map_cons, Dict.set]
      split
      · rfl
      · simp [ih]
  unfold MVD.append
  rw [hset, hg]
  congr 1
  cases Dict.get? d n <;> simp

/-- The visible result for a form is a function of the form alone. -/
theorem parse_form_view {ρ : Type} [Producer ρ] {L : Lawful ρ} (C : Codecs) (S : Settings) (os : Os)
    (hos : ∀ e, os.tempFile e = .ok ()) (fuel64 : Nat) (m : MultiPart) (hc : 1 ≤ m.chunkSize)
    (hl : m.contentLength ≠ 0) (h13 : 13 ∉ m.boundary) {pre : Option Bytes} {epi : Bytes}
    (ha : Around m.boundary pre epi) (hq : emptyQueryDict C S = .ok ())
    (hcs : ∀ n, (∀ c ∈ n, c < 128) → C.strEncode S.defaultCharset n = .ok n)
    (its : List FormItem) (hok : ∀ it ∈ its, it.Ok m.boundary) (hlim : InLimits S its)
    (hs : List Builtin) (heap : Heap) (ht : Takes S m.contentLength hs)
    (input : LazyStream ρ) (hi : SOK L input) (hin : L.sc input = renderForm m.boundary its pre epi) :
    viewOf (m.parse C S (builtinOps ρ os hs.length) fuel64 input ⟨hs, heap⟩).1
        (m.parse C S (builtinOps ρ os hs.length) fuel64 input ⟨hs, heap⟩).2.2.heap = .ok (formView its) := by
  have hraw := rawInputLoop_builtin (ρ := ρ) os hs.length ⟨m.contentLength, m.boundary, S⟩ input heap hs []
  simp only [List.length_nil, List.nil_append, ← List.range_eq_range'] at hraw
  obtain ⟨made, s', w', h1, h2, h3⟩ := parse_form (L := L) C S fuel64 m hc hl h13 ha hq hcs its hok hlim
    (fun _ => builtin_stores (ρ := ρ) hos hs.length) (builtin_stores (ρ := ρ) hos hs.length).finishes
    input hi hin ⟨hs, heap⟩ _ hraw (ht.ready _ _)
  rw [h1]
  simp only [viewOf, Except.map, Except.ok.injEq, formView, Prod.mk.injEq, true_and]
  have key : ∀ p ∈ made, Uploaded.view w'.heap p.2 = (p.1.2.1, p.1.2.2.length, some p.1.2.2) := by
    intro p hp
    have hp2 : p.1 ∈ filesOf its := by rw [← h2]; exact List.mem_map.2 ⟨p, hp, rfl⟩
    obtain ⟨it, hit, hit2⟩ := List.mem_filterMap.1 hp2
    obtain ⟨a1, a2, a3⟩ := h3.2.1 (p.1.2.1, p.2, p.1.2.2) (List.mem_map.2 ⟨p, hp, rfl⟩)
    have a4 : p.2.name = p.1.2.1 := by
      cases it with
      | field => simp at hit2
      | file n fn ct c =>
        obtain ⟨_, _, _, _, _, k6, k7, _⟩ := (hok _ hit).kind
        simp only [Option.some.injEq] at hit2
        simp only [← hit2] at a2 ⊢
        rw [a2, setName_id (fun h => (k7 47 h).2.2.1 rfl) k6]
    simp only [Uploaded.view, a4]
    simp only at a1 a3
    rw [a1, a3]
    rfl
  rw [← h2]
  clear h1 h2 h3
  unfold Made.dict
  suffices h : ∀ d : MVD Uploaded,
      List.map (fun q => (q.1, q.2.map (Uploaded.view w'.heap))) (made.foldl (fun d p => MVD.append d p.1.1 p.2) d) =
        (made.map Prod.fst).foldl (fun d p => MVD.append d p.1 (p.2.1, p.2.2.length, some p.2.2))
          (d.map (fun q => (q.1, q.2.map (Uploaded.view w'.heap)))) by
    exact h []
  induction made with
  | nil => intro d; rfl
  | cons p made ih =>
    intro d
    rw [List.foldl_cons, ih (fun q hq => key q (by simp [hq])), List.map_cons, List.foldl_cons, append_map,
      key p (by simp)]

/-! ### Refutations -/

/-- Parse a body that arrives in one piece. -/
def run (hs : List Builtin) (k : Nat) (body : Bytes) :=
  (⟨b!"B", k, 5000⟩ : MultiPart).parse latinCodecs {} (builtinOps Source goodOs hs.length) 100
    (LazyStream.mk' ⟨[body]⟩) { hs := hs }

/-- The names in `POST` and in `FILES`. -/
def namesOf (r : Except Exc (MVD PostItem × MVD Uploaded) × LazyStream Source × BWorld) : Option (List Bytes × List Bytes) :=
  match r.1 with
  | .ok (post, files) => some (post.map Prod.fst, files.map Prod.fst)
  | .error _ => none

/-- The exception. -/
def errorOf (r : Except Exc (MVD PostItem × MVD Uploaded) × LazyStream Source × BWorld) : Option Exc :=
  match r.1 with
  | .ok _ => none
  | .error e => some e

/-- A part without name, longer than the header window, in which something like a part is hidden. -/
def hidden : Bytes :=
  b!"--B\r\nX: y\r\n\r\n" ++ List.replicate 1130 97 ++
    b!"\r\nContent-Disposition: form-data; name=\"evil\"\r\n\r\nv\r\n--B--\r\n"

/-- **C28 is false**: whether the hidden part becomes a field depends on the chunk size. -/
theorem C28_refuted : ¬ ∀ (hs : List Builtin) (body : Bytes) (k k' : Nat), 1 ≤ k → 1 ≤ k' →
    namesOf (run hs k body) = namesOf (run hs k' body) := by
  intro h
  have := h [.memory {}] hidden 100 65536 (by decide) (by decide)
  revert this
  decide +kernel

/-- **C28, the part that holds**: for a form as a client writes it, the visible result depends on
nothing but the form: not on the chunk sizes, the pieces in which the body arrives, the stream's
history, the installed handlers and their history, the operating system, or what surrounds the
parts.  Missing: bodies that are not such forms (see `C28_refuted`). -/
theorem C28_forms_partial {ρ₁ ρ₂ : Type} [Producer ρ₁] [Producer ρ₂] {L₁ : Lawful ρ₁} {L₂ : Lawful ρ₂} (C : Codecs)
    (S₁ S₂ : Settings) (os₁ os₂ : Os) (hos₁ : ∀ e, os₁.tempFile e = .ok ()) (hos₂ : ∀ e, os₂.tempFile e = .ok ())
    (fuel₁ fuel₂ : Nat) (m₁ m₂ : MultiPart) (hc₁ : 1 ≤ m₁.chunkSize) (hc₂ : 1 ≤ m₂.chunkSize)
    (hl₁ : m₁.contentLength ≠ 0) (hl₂ : m₂.contentLength ≠ 0)
    (h13₁ : 13 ∉ m₁.boundary) (h13₂ : 13 ∉ m₂.boundary) {pre₁ pre₂ : Option Bytes} {epi₁ epi₂ : Bytes}
    (ha₁ : Around m₁.boundary pre₁ epi₁) (ha₂ : Around m₂.boundary pre₂ epi₂)
    (hq₁ : emptyQueryDict C S₁ = .ok ()) (hq₂ : emptyQueryDict C S₂ = .ok ())
    (hcs₁ : ∀ n, (∀ c ∈ n, c < 128) → C.strEncode S₁.defaultCharset n = .ok n)
    (hcs₂ : ∀ n, (∀ c ∈ n, c < 128) → C.strEncode S₂.defaultCharset n = .ok n)
    (its : List FormItem) (hok₁ : ∀ it ∈ its, it.Ok m₁.boundary) (hok₂ : ∀ it ∈ its, it.Ok m₂.boundary)
    (hlim₁ : InLimits S₁ its) (hlim₂ : InLimits S₂ its)
    (hs₁ hs₂ : List Builtin) (heap₁ heap₂ : Heap) (ht₁ : Takes S₁ m₁.contentLength hs₁)
    (ht₂ : Takes S₂ m₂.contentLength hs₂)
    (input₁ : LazyStream ρ₁) (hi₁ : SOK L₁ input₁) (hin₁ : L₁.sc input₁ = renderForm m₁.boundary its pre₁ epi₁)
    (input₂ : LazyStream ρ₂) (hi₂ : SOK L₂ input₂) (hin₂ : L₂.sc input₂ = renderForm m₂.boundary its pre₂ epi₂) :
    let r₁ := m₁.parse C S₁ (builtinOps ρ₁ os₁ hs₁.length) fuel₁ input₁ ⟨hs₁, heap₁⟩
    let r₂ := m₂.parse C S₂ (builtinOps ρ₂ os₂ hs₂.length) fuel₂ input₂ ⟨hs₂, heap₂⟩
    viewOf r₁.1 r₁.2.2.heap = viewOf r₂.1 r₂.2.2.heap := by
  intro r₁ r₂
  exact (parse_form_view C S₁ os₁ hos₁ fuel₁ m₁ hc₁ hl₁ h13₁ ha₁ hq₁ hcs₁ its hok₁ hlim₁ hs₁ heap₁ ht₁ input₁ hi₁ hin₁).trans
    (parse_form_view C S₂ os₂ hos₂ fuel₂ m₂ hc₂ hl₂ h13₂ ha₂ hq₂ hcs₂ its hok₂ hlim₂ hs₂ heap₂ ht₂ input₂ hi₂ hin₂).symm

/-- The visible result of the sample form. -/
example : formView sampleForm = ([(b!"a\"b", [plainItem b!"x\r\n--", plainItem []])],
    [(b!"up", [(b!"n.txt", 11, some b!"\r\n--0\r\ndata")])]) := by rfl

/-- **C27 is false**: the parser does not stop at the closing separator. -/
theorem C27_refuted : ∃ epilogue : Bytes, namesOf (run [.memory {}] 65536
    (renderForm b!"B" [.field b!"a" b!"x"] none epilogue)) = some ([b!"a", b!"evil"], []) :=
  ⟨b!"\r\nContent-Disposition: form-data; name=\"evil\"\r\n\r\nv", by decide +kernel⟩

/-- **C27, the part that holds**: an epilogue (of any length) without separator and without empty
line changes nothing: the visible result is that for the form alone.  Missing: epilogues with an
empty line or another separator (see `C27_refuted`). -/
theorem C27_epilogue_partial {ρ : Type} [Producer ρ] {L : Lawful ρ} (C : Codecs) (S : Settings) (os : Os)
    (hos : ∀ e, os.tempFile e = .ok ()) (fuel64 : Nat) (m : MultiPart) (hc : 1 ≤ m.chunkSize)
    (hl : m.contentLength ≠ 0) (h13 : 13 ∉ m.boundary) (epi : Bytes)
    (he1 : ¬ (b!"--" ++ m.boundary) <:+: b!"--" ++ epi) (he2 : ¬ b!"\r\n\r\n" <:+: epi)
    (hq : emptyQueryDict C S = .ok ())
    (hcs : ∀ n, (∀ c ∈ n, c < 128) → C.strEncode S.defaultCharset n = .ok n)
    (its : List FormItem) (hok : ∀ it ∈ its, it.Ok m.boundary) (hlim : InLimits S its)
    (hs : List Builtin) (heap : Heap) (ht : Takes S m.contentLength hs)
    (input : LazyStream ρ) (hi : SOK L input) (hin : L.sc input = renderForm m.boundary its none epi) :
    viewOf (m.parse C S (builtinOps ρ os hs.length) fuel64 input ⟨hs, heap⟩).1
        (m.parse C S (builtinOps ρ os hs.length) fuel64 input ⟨hs, heap⟩).2.2.heap = .ok (formView its) :=
  parse_form_view C S os hos fuel64 m hc hl h13 ⟨by simp, by simp, by simp, he1, he2⟩ hq hcs its hok hlim hs heap ht
    input hi hin

example : ¬ (b!"--" ++ b!"B") <:+: b!"--" ++ (b!"\r\n" ++ List.replicate 2000 97) ∧
    ¬ b!"\r\n\r\n" <:+: b!"\r\n" ++ List.replicate 2000 97 := by decide +kernel

/-- **C26 is false**: an empty file does not get into `FILES`, though a separator follows. -/
theorem C26_empty_refuted : namesOf (run [.memory {}] 65536
    (renderForm b!"B" [.file b!"up" b!"n.txt" b!"text/plain" []])) = some ([], []) := by decide +kernel

/-- With a temporary-file handler after the in-memory handler, the empty file is an
`AttributeError`. -/
theorem C26_empty_crash : errorOf (run [.memory {}, .temp {}] 65536
    (renderForm b!"B" [.file b!"up" b!"n.txt" b!"text/plain" []])) = some .attributeError := by decide +kernel

/-- **C26 is false**: a file whose closing separator ends the body does not get into `FILES`. -/
theorem C26_last_refuted : namesOf (run [.memory {}] 65536
    (b!"--B" ++ FormItem.text (.file b!"up" b!"n.txt" b!"text/plain" b!"data") ++ b!"\r\n--B")) = some ([], []) := by
  decide +kernel

/-- ... and one more byte changes that. -/
example : namesOf (run [.memory {}] 65536
    (b!"--B" ++ FormItem.text (.file b!"up" b!"n.txt" b!"text/plain" b!"data") ++ b!"\r\n--B-")) = some ([], [b!"up"]) := by
  decide +kernel

/-- **C26, the part that holds**: every non-empty file of a form is in `FILES` under its name, once
for each time it was sent.  Missing: empty files and a final file with nothing after its separator. -/
theorem C26_nonempty_partial {ρ : Type} [Producer ρ] {L : Lawful ρ} (C : Codecs) (S : Settings) (os : Os)
    (hos : ∀ e, os.tempFile e = .ok ()) (fuel64 : Nat) (m : MultiPart) (hc : 1 ≤ m.chunkSize)
    (hl : m.contentLength ≠ 0) (h13 : 13 ∉ m.boundary) {pre : Option Bytes} {epi : Bytes}
    (ha : Around m.boundary pre epi) (hq : emptyQueryDict C S = .ok ())
    (hcs : ∀ n, (∀ c ∈ n, c < 128) → C.strEncode S.defaultCharset n = .ok n)
    (its : List FormItem) (hok : ∀ it ∈ its, it.Ok m.boundary) (hlim : InLimits S its)
    (hs : List Builtin) (heap : Heap) (ht : Takes S m.contentLength hs)
    (input : LazyStream ρ) (hi : SOK L input) (hin : L.sc input = renderForm m.boundary its pre epi) :
    ∃ post files s' w', m.parse C S (builtinOps ρ os hs.length) fuel64 input ⟨hs, heap⟩ = (.ok (post, files), s', w') ∧
      ∀ n, ((Dict.get? files n).getD []).length = ((filesOf its).filter (fun p => p.1 = n)).length := by
  obtain ⟨post, files, s', w', h1, _, fs, h2, hnd, _, h3⟩ := C19_files C S os hos fuel64 m hc hl h13 ha hq hcs its hok hlim
    hs heap ht input hi hin
  refine ⟨post, files, s', w', h1, fun n => ?_⟩
  rw [h3]
  clear h1 h3 hin hok hlim hnd
  generalize filesOf its = l at h2
  have : (List.filter (fun p => decide (p.1.1 = n)) (l.zip fs)).length = (l.filter (fun p => p.1 = n)).length := by
    induction h2 with
    | nil => rfl
    | @cons p f l fs _ _ ih =>
      simp only [List.zip_cons_cons, List.filter_cons]
      split <;> simp [ih]
  split
  · rename_i h; rw [h] at this; simpa using this
  · simpa using this

end Verif
