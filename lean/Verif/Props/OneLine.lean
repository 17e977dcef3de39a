import Verif.Props.Shown
import Verif.Props.Gate
import Verif.Props.FileProxy
import Verif.Props.Meant
/-!
# What requests and files show of themselves (C149)
-/

namespace Verif
open Spec

/-- A printable ASCII character. -/
def Spec.Printable (c : UInt8) : Prop := 32 ≤ c ∧ c < 127

instance (c : UInt8) : Decidable (Printable c) := inferInstanceAs (Decidable (_ ∧ _))

theorem uriChar_printable (c : UInt8) (h : uriChar c = true) : Printable c := by
  have := forall_u8 (fun c => !uriChar c || decide (Printable c)) (by decide +kernel) c
  simpa [h] using this

theorem quoted_printable {t : Bytes} (h : ∀ c ∈ t, uriChar c = true) : ∀ c ∈ quoted t, Printable c := by
  intro c hc
  unfold quoted at hc
  split at hc <;> simp only [List.mem_append] at hc <;> rcases hc with (hc | hc) | hc
  all_goals first
    | exact uriChar_printable c (h c hc)
    | (revert c; decide)

section
variable {ρ σ F : Type}

/-- **C149, the part that holds**: whatever path and query string a request has, what is shown of it can be printed if
its method can; nothing is raised.  Missing: methods that cannot be printed, which are accepted
(`C149_request_refuted`), and files (`C149_file_refuted`). -/
theorem C149_partial (C : Codecs) (r : Req ρ σ F) (m : Meta) (hm : r.info = some m)
    (hM : ∀ M, r.method = some M → ∀ c ∈ M, Printable c) :
    ∃ t, r.repr C = .ok t ∧ ∀ c ∈ t, Printable c := by
  obtain ⟨t, h1, -, h3⟩ := C114_repr C r m hm
  refine ⟨_, h3, ?_⟩
  have ht : ∀ c ∈ t, uriChar c = true := by
    unfold Req.getFullPath at h1
    rw [hm] at h1
    exact (C56_chars C _ _ _ t h1).1
  cases h : r.method with
  | none => simp only; decide
  | some M =>
    simp only
    split
    · decide
    · intro c hc
      simp only [List.mem_append] at hc
      rcases hc with (((hc | hc) | hc) | hc) | hc
      · revert c; decide
      · exact hM M h c hc
      · revert c; decide
      · exact quoted_printable ht c hc
      · revert c; decide

end

section
variable {ρ σ F : Type} [Producer ρ]

/-- **C149 is false of the code for every method**: a request is accepted whatever bytes other than a space and CR its
method has, and they are shown as they are; so one with a line feed in its method is shown on two lines. -/
theorem C149_request_refuted {L : Lawful ρ} {E : Env ρ σ F} {S : Settings} {p : ρ} {m : Message} {host port : Bytes}
    {type : Option Bytes} {ps : List (Bytes × Bytes)} {qs : List (UStr × UStr)}
    (h : Arrives L E.C S p m host port type ps qs) (c : UInt8) (hc : c ∈ m.method) :
    ∃ (r0 r' : Req ρ σ F) (t : Bytes), Req.new E.C S p = .ok r0 ∧
      parseRequestHeader E S r0 = (.ok (), charsetAfter S ps, r') ∧ r'.method = some m.method ∧
      r'.repr E.C = .ok t ∧ c ∈ t ∧ (¬ Printable c → ¬ ∀ x ∈ t, Printable x) := by
  obtain ⟨r0, r', h1, h2, h3⟩ := C76_header (σ := σ) (F := F) h
  obtain ⟨d, hi, -⟩ := h3.info
  obtain ⟨t, a1, a2, a3⟩ := C114_repr E.C r' _ hi
  have ht : t ≠ [] := by
    intro ht
    obtain ⟨q, hq, -⟩ := h.ok.slash
    have := (a2.1 ht).1
    simp [Req.getPath, h3.path, hq] at this
  rw [h3.method] at a3
  simp only [ht, if_false] at a3
  have hin : c ∈ b!"<HttpRequest: " ++ m.method ++ b!" " ++ quoted t ++ b!">" := by simp [hc]
  exact ⟨r0, r', _, h1, h2, h3.method, a3, hin, fun hn hall => hn (hall c hin)⟩

end

/-- A line feed in the path and in the query string is not shown as it is. -/
example : ∃ t, Req.repr (ρ := Source) (σ := Unit) (F := Unit) pyCodecs
    { stream := LazyStream.mk' ⟨[]⟩, info := some ⟨some b!"x\n", none⟩, method := some b!"GET", path := some b!"/a\nb" } =
    .ok t ∧ ∀ c ∈ t, Printable c :=
  C149_partial _ _ _ rfl (by intro M hM; cases hM; decide)

/-- A form with a line feed in its method. -/
def brokenMethod : Message := { formMessage [] with method := b!"GET\nX" }

/-- However the request is cut, it is shown on two lines. -/
example (cs : List Bytes) (h : cs.flatten = brokenMethod.text) :
    let E : Env Source BWorld Uploaded := ⟨pyCodecs, [], fun w => (.error .keyError, w), 1000⟩
    ∃ (r0 r' : Req Source BWorld Uploaded) (t : Bytes), Req.new E.C {} ⟨cs⟩ = .ok r0 ∧
      parseRequestHeader E {} r0 = (.ok (), {}, r') ∧ r'.method = some b!"GET\nX" ∧
      r'.repr E.C = .ok t ∧ (10 : UInt8) ∈ t ∧ (¬ Printable 10 → ¬ ∀ x ∈ t, Printable x) := by
  intro E
  have a := formMessage_arrives py_latin1 [] [(formMessage []).text] (by simp)
  have a' : Arrives Source.lawful pyCodecs {} ⟨cs⟩ brokenMethod b!"a.b" [] (some b!"multipart/form-data")
      [(b!"boundary", b!"B")] [] :=
    { size := a.size, inv := a.inv,
      ok := { method := by simp only [brokenMethod]; decide +kernel, proto := a.ok.proto, scheme := a.ok.scheme, path := a.ok.path,
              slash := a.ok.slash, query := a.ok.query, names := a.ok.names, values := a.ok.values, some := a.ok.some },
      text := h, host := a.host, content := a.content, codec0 := a.codec0, codec := a.codec, query := a.query,
      limit := a.limit }
  exact C149_request_refuted (E := E) a' 10 (by decide)

/-- A form with a file whose name has a line feed in it. -/
def brokenName : Bytes :=
  b!"--B\r\nContent-Disposition: form-data; name=\"f\"; filename=\"a\nb\"\r\n\r\nhello\r\n--B--\r\n"

/-- **C149 is false of the code for files**: the name that the client gave is shown as it is, for every name; and a
form may have a file with a line feed in its name, however it is stored. -/
theorem C149_file_refuted :
    (∀ (f : FileO) (n : Bytes) (ct : Option Bytes), f.name = some n → f.cls = .temp ∨ f.cls = .memory →
      ∃ t, f.repr ct = .ok t ∧ ∀ c ∈ n, c ∈ t) ∧
    (∀ b ∈ ([.memory {}, .temp {}, .conv {}] : List Builtin),
      (((⟨b!"B", 65536, 100⟩ : MultiPart).parse latinCodecs {} (builtinOps Source goodOs 1) 0
        (LazyStream.mk' ⟨[brokenName]⟩) ⟨[b], []⟩).1.map fun p => (items p.2).map fun q => (q.1, q.2.name)).toOption =
      some [(b!"f", b!"a\nb")]) := by
  refine ⟨fun f n ct hn hk => ?_, ?_⟩
  · obtain ⟨h1, h2⟩ := C104_repr_partial f ct
    rcases hk with hk | hk
    · exact ⟨_, h1 hk, fun c hc => by simp [hn, hc]⟩
    · exact ⟨_, h2 hk, fun c hc => by simp [hn, hc]⟩
  · decide +kernel

end Verif
