import Verif.Props.OneLine
import Verif.Props.RequestForm
import Verif.Model.Use
/-!
# Files of whole requests show any byte of their names (C149)
-/

namespace Verif
open Spec

variable {ρ : Type} [Producer ρ]
variable {L : Lawful ρ} {E : Env ρ BWorld Uploaded} {S : Settings} {p : ρ} {m : Message}
  {host port type : Bytes} {ps : List (Bytes × Bytes)} {qs : List (UStr × UStr)} {b cl : Bytes} {n : Nat}
  {w : BWorld} {hs : List Builtin} {heap : Heap}

omit [Producer ρ] in
/-- A file that an application sees is in `FILES`, and there is a file behind it. -/
theorem view_file {r : Req ρ BWorld Uploaded} {heap : Heap} {view : MVD PostItem × MVD (Bytes × Nat × Option Bytes)}
    (h : r.view heap = some view) {name fn c : Bytes} {k : Nat} (hi : (name, fn, k, some c) ∈ items view.2) :
    ∃ (files : MVD Uploaded) (f : Uploaded) (o : FileObj), r.files = some files ∧ (name, f) ∈ items files ∧
      f.name = fn ∧ heap[f.ref]? = some o := by
  unfold Req.view at h
  split at h
  · rename_i post files hp hf
    cases h
    simp only [items, List.mem_flatMap, List.mem_map] at hi
    obtain ⟨q, ⟨q', hq', rfl⟩, v, hv, e⟩ := hi
    simp only [List.mem_map] at hv
    obtain ⟨f, hfm, rfl⟩ := hv
    simp only [Uploaded.view, Prod.mk.injEq] at e
    obtain ⟨e1, e2, -, e4⟩ := e
    cases ho : heap[f.ref]? with
    | none => rw [ho] at e4; cases e4
    | some o =>
      refine ⟨files, f, o, hf, ?_, e2, ho⟩
      simp only [items, List.mem_flatMap, List.mem_map]
      exact ⟨q', hq', f, hfm, by rw [e1]⟩
  · cases h

/-- **C149 is false of the code for every form**: whatever bytes the name of a file has, other than CR, `&` and the two
slashes, a request with the file is accepted, and the text that the file shows of itself has all these bytes. -/
theorem C149_form_refuted (h : Arrives L E.C S p m host port (some type) ps qs)
    (hty : b!"multipart/" <+: type) (hlo : Py.lower type = b!"multipart/form-data")
    (hb : param ps b!"boundary" = some b) (hbo : BoundaryOk (Py.toU b)) (h13 : 13 ∉ b)
    (hcl : m.header b!"Content-Length" = some cl) (hn : Numeral 10 DecDigit cl n) (h0 : n ≠ 0)
    (hC : ∀ b, E.C.Avoids (.stopUpload b)) (hmem : Allowed S.dataMaxMemory 0)
    (os : Os) (hos : ∀ e, os.tempFile e = .ok ()) (hl : E.load w = (.ok (builtinOps ρ os hs.length), ⟨hs, heap⟩))
    (ht : Takes S n hs) {pre : Option Bytes} {epi : Bytes} (ha : Around b pre epi)
    (its : List FormItem) (hok : ∀ it ∈ its, it.Ok b) (hlim : InLimits S its) (hbody : m.body = renderForm b its pre epi)
    {name fn ct c : Bytes} (hit : FormItem.file name fn ct c ∈ its) :
    ∃ (r0 r' : Req ρ BWorld Uploaded) (w' : BWorld) (files : MVD Uploaded) (f : Uploaded) (o : FileObj),
      Req.new E.C S p = .ok r0 ∧
      parseRequest E S r0 w = (.ok (), charsetAfter S ps, r', w') ∧ r'.bodyParsed = true ∧
      r'.files = some files ∧ (name, f) ∈ items files ∧ w'.heap[f.ref]? = some o ∧
      ∀ type', ∃ t, (f.obj o).repr type' = .ok t ∧ fn <:+: t ∧ ((∃ x ∈ fn, ¬ Printable x) → ∃ x ∈ t, ¬ Printable x) := by
  obtain ⟨r0, r', w', view, a1, a2, -, a4, a5, a6⟩ :=
    file_listed h hty hlo hb hbo h13 hcl hn h0 hC hmem os hos hl ht ha its hok hlim hbody hit
  obtain ⟨files, f, o, b1, b2, b3, b4⟩ := view_file a5 a6
  refine ⟨r0, r', w', files, f, o, a1, a2, a4, b1, b2, b4, fun type' => ?_⟩
  have key : ∃ t, (f.obj o).repr type' = .ok t ∧ fn <:+: t := by
    obtain ⟨h1, h2⟩ := C104_repr_partial (f.obj o) type'
    have hnm : (f.obj o).name = some fn := by rw [← b3]; rfl
    rw [hnm] at h1 h2
    cases hm : f.inMemory with
    | true => exact ⟨_, h2 (by simp [Uploaded.obj, hm]), ⟨_, _, by simp only [List.append_assoc]; rfl⟩⟩
    | false => exact ⟨_, h1 (by simp [Uploaded.obj, hm]), ⟨_, _, by simp only [List.append_assoc]; rfl⟩⟩
  obtain ⟨t, h1, h2⟩ := key
  exact ⟨t, h1, h2, fun ⟨x, hx, hp⟩ => ⟨x, h2.subset hx, hp⟩⟩

/-- A form with a file whose name has a line feed and an escape character in it. -/
def escapeForm : List FormItem := [.field b!"a" b!"x", .file b!"up" (b!"a\n" ++ 27 :: b!"[2J") b!"text/plain" b!"data"]

theorem escapeForm_ok : ∀ it ∈ escapeForm, it.Ok b!"B" := by
  intro it hit
  simp only [escapeForm, List.mem_cons, List.not_mem_nil, or_false] at hit
  rcases hit with rfl | rfl
  · exact ⟨by decide +kernel, by decide +kernel, by decide +kernel, by decide +kernel,
      by decide +kernel, separable_of_no_semicolon (by decide +kernel) (by decide +kernel)⟩
  · exact ⟨by decide +kernel, by decide +kernel, by decide +kernel, by decide +kernel,
      by decide +kernel, separable_of_no_semicolon (by decide +kernel) (by decide +kernel), by decide +kernel,
      by decide +kernel, by decide +kernel, by decide +kernel, by decide +kernel, by decide +kernel⟩

/-- The request with this form, with the handler of the default settings, however it is cut. -/
example (cs : List Bytes) (h : cs.flatten = (formMessage (renderForm b!"B" escapeForm none b!"\r\n")).text) :
    let E : Env Source BWorld Uploaded := ⟨latinCodecs, [], fun _ => (.ok (builtinOps Source goodOs 1), ⟨[.conv {}], []⟩), 0⟩
    ∃ (r0 r' : Req Source BWorld Uploaded) (w' : BWorld) (files : MVD Uploaded) (f : Uploaded) (o : FileObj),
      Req.new E.C {} ⟨cs⟩ = .ok r0 ∧
      parseRequest E {} r0 ⟨[], []⟩ = (.ok (), charsetAfter {} [(b!"boundary", b!"B")], r', w') ∧
      r'.files = some files ∧ (b!"up", f) ∈ items files ∧ w'.heap[f.ref]? = some o ∧
      ∃ t, (f.obj o).repr none = .ok t ∧ ∃ x ∈ t, ¬ Printable x := by
  intro E
  obtain ⟨r0, r', w', files, f, o, a1, a2, -, a4, a5, a6, a7⟩ :=
    C149_form_refuted (E := E) (formMessage_arrives (latin_asciiCodec _) _ cs h)
    (by decide) (by decide +kernel) (b := b!"B") (by decide +kernel) boundaryB (by decide) rfl three_hundred (by decide)
    (fun b => latin_avoids (by simp) (by simp)) ⟨_, rfl, by decide⟩ goodOs (fun _ => rfl)
    (w := ⟨[], []⟩) (hs := [.conv {}]) (heap := []) rfl ⟨⟨.conv {}, by simp, trivial⟩, by intro h _ _; decide⟩
    gapAroundB escapeForm escapeForm_ok ⟨by intro n h; cases h; decide, by intro n h; cases h; decide⟩ rfl
    (name := b!"up") (fn := b!"a\n" ++ 27 :: b!"[2J") (ct := b!"text/plain") (c := b!"data") (by simp [escapeForm])
  obtain ⟨t, b1, -, b2⟩ := a7 none
  exact ⟨r0, r', w', files, f, o, a1, a2, a4, a5, a6, t, b1, b2 (by decide)⟩

end Verif
