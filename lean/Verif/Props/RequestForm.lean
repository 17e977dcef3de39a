import Verif.Props.EmptyRequest
import Verif.Props.MemLimit
/-!
# Forms in whole requests: base64 (C83) and the names of files (C68)
-/

namespace Verif
open Spec

section
variable {ρ : Type} [Producer ρ] {L : Lawful ρ}
variable {E : Env ρ BWorld Uploaded} {S : Settings} {p : ρ} {m : Message}
  {host port type : Bytes} {ps : List (Bytes × Bytes)} {qs : List (UStr × UStr)} {b cl : Bytes} {n : Nat}
  {w : BWorld} {hs : List Builtin} {heap : Heap}

/-- **C83 for a whole request**: `POST` and `FILES` of a request with a form some files of which were sent in base64 are
those of the form. -/
theorem C83_request (h : Arrives L E.C S p m host port (some type) ps qs)
    (hty : b!"multipart/" <+: type) (hlo : Py.lower type = b!"multipart/form-data")
    (hb : param ps b!"boundary" = some b) (hbo : BoundaryOk (Py.toU b)) (h13 : 13 ∉ b)
    (hcl : m.header b!"Content-Length" = some cl) (hn : Numeral 10 DecDigit cl n) (h0 : n ≠ 0)
    (hC : ∀ b, E.C.Avoids (.stopUpload b)) (hmem : Allowed S.dataMaxMemory 0)
    (os : Os) (hos : ∀ e, os.tempFile e = .ok ()) (hl : E.load w = (.ok (builtinOps ρ os hs.length), ⟨hs, heap⟩))
    (ht : Takes S n hs) (hf : m.body.length ≤ E.fuel64) {epi : Bytes}
    (he1 : ¬ (b!"--" ++ b) <:+: b!"--" ++ epi) (he2 : ¬ b!"\r\n\r\n" <:+: b!"--" ++ epi)
    (sent : List (FormItem × Bytes)) (hok : ∀ p ∈ sent, p.1.Sent b p.2) (hlim : InLimits S (sent.map Prod.fst))
    (hbody : m.body = renderSent b sent epi) :
    ∃ (r0 r' : Req ρ BWorld Uploaded) (w' : BWorld), Req.new E.C S p = .ok r0 ∧
      parseRequest E S r0 w = (.ok (), charsetAfter S ps, r', w') ∧ HeadRead m host port (some type) qs r' ∧
      r'.bodyParsed = true ∧ r'.view w'.heap = some (formView (sent.map Prod.fst)) := by
  have hST := charsetAfter_fields S ps
  have hne : m.body ≠ [] := by rw [hbody]; simp [renderSent]
  have ht' : Takes (charsetAfter S ps) n hs := by unfold Takes at ht ⊢; rw [hST.2.2]; exact ht
  have hhs : hs ≠ [] := by obtain ⟨⟨x, hx, _⟩, _⟩ := ht; rintro rfl; cases hx
  exact request_view h hty hlo hb hbo hcl hn h0 hne hC hmem os (plain_of_works hos) hl hhs (.ok (formView (sent.map Prod.fst)))
    (fun k s hk hs' hsc hq => C83_base64 (L := L) E.C (charsetAfter S ps) os hos E.fuel64 ⟨b, k, n⟩ hk h0 h13 he1 he2 hq
      h.codec.str sent hok ⟨by rw [hST.1]; exact hlim.1, by rw [hST.2.1]; exact hlim.2⟩ hs heap ht' s hs'
      (by rw [hsc]; exact hbody) (by show (renderSent b sent epi).length ≤ _; rw [← hbody]; exact hf))

/-- The files of a form are in `FILES`, with the names that the client gave them. -/
theorem mem_formView {its : List FormItem} {name fn ct c : Bytes} (h : FormItem.file name fn ct c ∈ its) :
    (name, fn, c.length, some c) ∈ items (formView its).2 := by
  have hmem : (name, fn, c) ∈ Spec.filesOf its := List.mem_filterMap.2 ⟨_, h, rfl⟩
  have key : ∀ (l : List (Bytes × Bytes × Bytes)) (d : MVD (Bytes × Nat × Option Bytes)),
      (name, fn, c.length, some c) ∈ items d ∨ (name, fn, c) ∈ l →
      (name, fn, c.length, some c) ∈ items (l.foldl (fun d p => MVD.append d p.1 (p.2.1, p.2.2.length, some p.2.2)) d) := by
    intro l
    induction l with
    | nil => intro d h; simpa using h
    | cons q l ih =>
      intro d h
      refine ih _ ?_
      rw [mem_items_appended]
      rcases h with h | h
      · exact .inl (.inl h)
      · rcases List.mem_cons.1 h with rfl | h
        · exact .inl (.inr rfl)
        · exact .inr h
  exact key _ [] (.inr hmem)

/-- A request with a form is accepted, and each of its files is in `FILES` under its name. -/
theorem file_listed (h : Arrives L E.C S p m host port (some type) ps qs)
    (hty : b!"multipart/" <+: type) (hlo : Py.lower type = b!"multipart/form-data")
    (hb : param ps b!"boundary" = some b) (hbo : BoundaryOk (Py.toU b)) (h13 : 13 ∉ b)
    (hcl : m.header b!"Content-Length" = some cl) (hn : Numeral 10 DecDigit cl n) (h0 : n ≠ 0)
    (hC : ∀ b, E.C.Avoids (.stopUpload b)) (hmem : Allowed S.dataMaxMemory 0)
    (os : Os) (hos : ∀ e, os.tempFile e = .ok ()) (hl : E.load w = (.ok (builtinOps ρ os hs.length), ⟨hs, heap⟩))
    (ht : Takes S n hs) {pre : Option Bytes} {epi : Bytes} (ha : Around b pre epi)
    (its : List FormItem) (hok : ∀ it ∈ its, it.Ok b) (hlim : InLimits S its) (hbody : m.body = renderForm b its pre epi)
    {name fn ct c : Bytes} (hit : FormItem.file name fn ct c ∈ its) :
    ∃ (r0 r' : Req ρ BWorld Uploaded) (w' : BWorld) (view : MVD PostItem × MVD (Bytes × Nat × Option Bytes)),
      Req.new E.C S p = .ok r0 ∧
      parseRequest E S r0 w = (.ok (), charsetAfter S ps, r', w') ∧ HeadRead m host port (some type) qs r' ∧
      r'.bodyParsed = true ∧ r'.view w'.heap = some view ∧
      (name, fn, c.length, some c) ∈ items view.2 := by
  have hST := charsetAfter_fields S ps
  have hne : m.body ≠ [] := by rw [hbody]; cases pre <;> simp [renderForm]
  have ht' : Takes (charsetAfter S ps) n hs := by unfold Takes at ht ⊢; rw [hST.2.2]; exact ht
  have hhs : hs ≠ [] := by obtain ⟨⟨x, hx, _⟩, _⟩ := ht; rintro rfl; cases hx
  obtain ⟨r0, r', w', a1, a2, a3, a4, a5⟩ := request_view h hty hlo hb hbo hcl hn h0 hne hC hmem os (plain_of_works hos) hl hhs
    (.ok (formView its))
    (fun k s hk hs' hsc hq => parse_form_view (L := L) E.C (charsetAfter S ps) os hos E.fuel64 ⟨b, k, n⟩ hk h0 h13 ha hq
      h.codec.str its hok ⟨by rw [hST.1]; exact hlim.1, by rw [hST.2.1]; exact hlim.2⟩ hs heap ht' s hs'
      (by rw [hsc]; exact hbody))
  exact ⟨r0, r', w', _, a1, a2, a3, a4, a5, mem_formView hit⟩

/-- **C68 is false of the code for every form**: a request with a form one file of which is called `.` or `..` is accepted, and
the file is in `FILES` under this name. -/
theorem C68_request_refuted (h : Arrives L E.C S p m host port (some type) ps qs)
    (hty : b!"multipart/" <+: type) (hlo : Py.lower type = b!"multipart/form-data")
    (hb : param ps b!"boundary" = some b) (hbo : BoundaryOk (Py.toU b)) (h13 : 13 ∉ b)
    (hcl : m.header b!"Content-Length" = some cl) (hn : Numeral 10 DecDigit cl n) (h0 : n ≠ 0)
    (hC : ∀ b, E.C.Avoids (.stopUpload b)) (hmem : Allowed S.dataMaxMemory 0)
    (os : Os) (hos : ∀ e, os.tempFile e = .ok ()) (hl : E.load w = (.ok (builtinOps ρ os hs.length), ⟨hs, heap⟩))
    (ht : Takes S n hs) {pre : Option Bytes} {epi : Bytes} (ha : Around b pre epi)
    (its : List FormItem) (hok : ∀ it ∈ its, it.Ok b) (hlim : InLimits S its) (hbody : m.body = renderForm b its pre epi)
    {name dots ct c : Bytes} (_hd : dots = b!"." ∨ dots = b!"..") (hit : FormItem.file name dots ct c ∈ its) :
    ∃ (r0 r' : Req ρ BWorld Uploaded) (w' : BWorld) (view : MVD PostItem × MVD (Bytes × Nat × Option Bytes)),
      Req.new E.C S p = .ok r0 ∧
      parseRequest E S r0 w = (.ok (), charsetAfter S ps, r', w') ∧ HeadRead m host port (some type) qs r' ∧
      r'.bodyParsed = true ∧ r'.view w'.heap = some view ∧
      (name, dots, c.length, some c) ∈ items view.2 := by
  exact file_listed h hty hlo hb hbo h13 hcl hn h0 hC hmem os hos hl ht ha its hok hlim hbody hit

/-! ### Requests that meet the hypotheses -/

/-- The form of `sampleSent`, with the handler of the default settings. -/
example (cs : List Bytes) (h : cs.flatten = (formMessage (renderSent b!"B" sampleSent b!"\r\n")).text) :
    let E : Env Source BWorld Uploaded := ⟨latinCodecs, [], fun _ => (.ok (builtinOps Source goodOs 1), ⟨[.conv {}], []⟩), 1000⟩
    ∃ (r0 r' : Req Source BWorld Uploaded) (w' : BWorld), Req.new E.C {} ⟨cs⟩ = .ok r0 ∧
      parseRequest E {} r0 ⟨[], []⟩ = (.ok (), charsetAfter {} [(b!"boundary", b!"B")], r', w') ∧
      HeadRead (formMessage (renderSent b!"B" sampleSent b!"\r\n")) b!"a.b" [] (some b!"multipart/form-data") [] r' ∧
      r'.bodyParsed = true ∧ r'.view w'.heap = some ([(b!"a", [plainItem b!"1"])],
        [(b!"up", [(b!"n.txt", 7, some b!"Hello!!"), (b!"m", 1, some b!"x")])]) := by
  intro E
  exact C83_request (E := E) (formMessage_arrives (latin_asciiCodec _) _ cs h)
    (by decide) (by decide +kernel) (b := b!"B") (by decide +kernel) boundaryB (by decide) rfl three_hundred (by decide)
    (fun b => latin_avoids (by simp) (by simp)) ⟨_, rfl, by decide⟩ goodOs (fun _ => rfl)
    (w := ⟨[], []⟩) (hs := [.conv {}]) (heap := []) rfl ⟨⟨.conv {}, by simp, trivial⟩, by intro h _ _; decide⟩
    (by show (renderSent b!"B" sampleSent b!"\r\n").length ≤ 1000; decide +kernel)
    (by decide +kernel) (by decide +kernel) sampleSent sampleSent_ok
    ⟨by intro n h; cases h; decide, by intro n h; cases h; decide⟩ rfl

/-- A form with a file called `..`. -/
def dotsForm : List FormItem := [.field b!"a" b!"x", .file b!"up" b!".." b!"text/plain" b!"data"]

theorem dotsForm_ok : ∀ it ∈ dotsForm, it.Ok b!"B" := by
  intro it hit
  simp only [dotsForm, List.mem_cons, List.not_mem_nil, or_false] at hit
  rcases hit with rfl | rfl
  · exact ⟨by decide +kernel, by decide +kernel, by decide +kernel, by decide +kernel,
      by decide +kernel, separable_of_no_semicolon (by decide +kernel) (by decide +kernel)⟩
  · exact ⟨by decide +kernel, by decide +kernel, by decide +kernel, by decide +kernel,
      by decide +kernel, separable_of_no_semicolon (by decide +kernel) (by decide +kernel), by decide +kernel,
      by decide +kernel, by decide +kernel, by decide +kernel, by decide +kernel, by decide +kernel⟩

example (cs : List Bytes) (h : cs.flatten = (formMessage (renderForm b!"B" dotsForm none b!"\r\n")).text) :
    let E : Env Source BWorld Uploaded := ⟨latinCodecs, [], fun _ => (.ok (builtinOps Source goodOs 1), ⟨[.conv {}], []⟩), 0⟩
    ∃ (r0 r' : Req Source BWorld Uploaded) (w' : BWorld) (view : MVD PostItem × MVD (Bytes × Nat × Option Bytes)),
      Req.new E.C {} ⟨cs⟩ = .ok r0 ∧
      parseRequest E {} r0 ⟨[], []⟩ = (.ok (), charsetAfter {} [(b!"boundary", b!"B")], r', w') ∧
      HeadRead (formMessage (renderForm b!"B" dotsForm none b!"\r\n")) b!"a.b" [] (some b!"multipart/form-data") [] r' ∧
      r'.bodyParsed = true ∧ r'.view w'.heap = some view ∧
      (b!"up", b!"..", 4, some b!"data") ∈ items view.2 := by
  intro E
  exact C68_request_refuted (E := E) (formMessage_arrives (latin_asciiCodec _) _ cs h)
    (by decide) (by decide +kernel) (b := b!"B") (by decide +kernel) boundaryB (by decide) rfl three_hundred (by decide)
    (fun b => latin_avoids (by simp) (by simp)) ⟨_, rfl, by decide⟩ goodOs (fun _ => rfl)
    (w := ⟨[], []⟩) (hs := [.conv {}]) (heap := []) rfl ⟨⟨.conv {}, by simp, trivial⟩, by intro h _ _; decide⟩
    gapAroundB dotsForm dotsForm_ok ⟨by intro n h; cases h; decide, by intro n h; cases h; decide⟩ rfl
    (name := b!"up") (ct := b!"text/plain") (c := b!"data") (.inr rfl) (by simp [dotsForm])

end
end Verif
