import Verif.Props.GateAll
import Verif.Props.EmptyRequest
/-!
# Handlers that refuse files in whole requests (C100, C101)
-/

namespace Verif
open Spec

section
variable {ρ : Type} [Producer ρ] {L : Lawful ρ} {E : Env ρ BWorld Uploaded} {S : Settings} {p : ρ} {m : Message}
  {host port type : Bytes} {ps : List (Bytes × Bytes)} {qs : List (UStr × UStr)} {b cl : Bytes} {n : Nat}
  {w : BWorld} {hs : List Builtin} {heap : Heap} {gate : NewFileArgs → Option Exc}

/-- **C100 and C101 for whole requests**: when the configured handlers are the built-in ones behind one that refuses
files, an upload of which files are skipped, or that is stopped without resetting the connection, is an accepted request
with the `POST` and the `FILES` that the body means, except that files may be closed; any other exception of the gate
is raised by `parse()`.  Missing: that no file is closed (`C101_request_refuted`). -/
theorem C100_request_partial (h : Arrives L E.C S p m host port (some type) ps qs)
    (hty : b!"multipart/" <+: type) (hlo : Py.lower type = b!"multipart/form-data")
    (hb : param ps b!"boundary" = some b) (hbo : BoundaryOk (Py.toU b))
    (hcl : m.header b!"Content-Length" = some cl) (hn : Numeral 10 DecDigit cl n) (h0 : n ≠ 0) (hne : m.body ≠ [])
    (hC : ∀ b, E.C.Avoids (.stopUpload b)) (hmem : Allowed S.dataMaxMemory 0)
    (os : Os) (hos : ∀ e, os.tempFile e = .ok ())
    (hl : E.load w = (.ok (gated gate (builtinOps ρ os hs.length)), ⟨hs, heap⟩)) (ht : Takes (charsetAfter S ps) n hs)
    (hf : m.body.length ≤ E.fuel64) (res : Outcome) (hr : ∀ g, res ≠ .stopped g true)
    (hread : ReadsGated E.C (charsetAfter S ps) (b!"--" ++ b) gate m.body ⟨[], [], none, 0, 0⟩ res) :
    ∃ (r0 r' : Req ρ BWorld Uploaded) (w' : BWorld) (R : Except Exc Unit), Req.new E.C S p = .ok r0 ∧
      parseRequest E S r0 w = (R, charsetAfter S ps, r', w') ∧ HeadRead m host port (some type) qs r' ∧
      match res with
      | .read g | .stopped g _ => R = .ok () ∧ r'.bodyParsed = true ∧
        ∃ post files, r'.post = some (.form post) ∧ r'.files = some files ∧
          SameButClosed (viewOf (.ok (post, files)) w'.heap) (.ok g.view)
      | .failed e => R = .error e ∧ r'.bodyParsed = false ∧ r'.files = some [] := by
  obtain ⟨r0, s, h1, h2, h3, h4, h5, h6, h7⟩ := multipart_arrives h hty hlo hb hbo hcl hn hne hmem hl
    (by simp [gated])
  obtain ⟨R, s', w', k1, k2, k3, -⟩ := gated_builtin (L := L) E.C hC (charsetAfter S ps) h5 gate os hos E.fuel64
    ⟨b, _, n⟩ h4 h0 hs heap ht s h2 (by rw [h3]; exact hf) res (by rw [h3]; exact hread)
  have ok : ∀ g, res = .read g ∨ res = .stopped g false → res.view = .ok g.view →
      ∃ (r0 r' : Req ρ BWorld Uploaded) (w' : BWorld) (R : Except Exc Unit), Req.new E.C S p = .ok r0 ∧
      parseRequest E S r0 w = (R, charsetAfter S ps, r', w') ∧ HeadRead m host port (some type) qs r' ∧
      R = .ok () ∧ r'.bodyParsed = true ∧
        ∃ post files, r'.post = some (.form post) ∧ r'.files = some files ∧
          SameButClosed (viewOf (.ok (post, files)) w'.heap) (.ok g.view) := by
    intro g hg hv
    rw [hv] at k2
    cases R with
    | error e => exact absurd k2 (by simp [viewOf, Except.map, SameButClosed])
    | ok x =>
      obtain ⟨post, files⟩ := x
      obtain ⟨r', a1, a2, a3, a4, a5⟩ := h6 post files s' w' k1 (k3 g hg).2 (k3 g hg).1
      exact ⟨r0, r', w', _, h1, a1, a2, rfl, a3, post, files, a4, a5, k2⟩
  cases res with
  | read g => exact ok g (.inl rfl) rfl
  | stopped g c =>
    cases c with
    | true => exact absurd rfl (hr g)
    | false => exact ok g (.inr rfl) rfl
  | failed e =>
    cases R with
    | ok x => exact absurd k2 (by simp [viewOf, Except.map, SameButClosed, Outcome.view])
    | error e' =>
      have : e' = e := k2
      subst this
      obtain ⟨r', a1, a2, a3, -, a5, -⟩ := h7 _ s' w' k1
      exact ⟨r0, r', w', _, h1, a1, a2, rfl, a3, a5⟩

/-- **C101 is false of the code for every request**: when the handlers behind the gate are `MemoryFileUploadHandler`s and
`TemporaryFileUploadHandler`s, a request whose upload is stopped after some files were complete is accepted, and the
last of these files is in `FILES`, with its name and size, and cannot be read. -/
theorem C101_request_refuted (h : Arrives L E.C S p m host port (some type) ps qs)
    (hty : b!"multipart/" <+: type) (hlo : Py.lower type = b!"multipart/form-data")
    (hb : param ps b!"boundary" = some b) (hbo : BoundaryOk (Py.toU b))
    (hcl : m.header b!"Content-Length" = some cl) (hn : Numeral 10 DecDigit cl n) (h0 : n ≠ 0) (hne : m.body ≠ [])
    (hC : ∀ b, E.C.Avoids (.stopUpload b)) (hmem : Allowed S.dataMaxMemory 0)
    (os : Os) (hos : ∀ e, os.tempFile e = .ok ())
    (hl : E.load w = (.ok (gated gate (builtinOps ρ os hs.length)), ⟨hs, heap⟩)) (ht : Takes (charsetAfter S ps) n hs)
    (hd : ∀ b ∈ hs, b.Direct) (hf : m.body.length ≤ E.fuel64)
    (g : Ghost) (fs : List (Bytes × Bytes × Bytes)) (name fn data : Bytes) (hg : g.files = fs ++ [(name, fn, data)])
    (hread : ReadsGated E.C (charsetAfter S ps) (b!"--" ++ b) gate m.body ⟨[], [], none, 0, 0⟩ (.stopped g false)) :
    ∃ (r0 r' : Req ρ BWorld Uploaded) (w' : BWorld), Req.new E.C S p = .ok r0 ∧
      parseRequest E S r0 w = (.ok (), charsetAfter S ps, r', w') ∧ HeadRead m host port (some type) qs r' ∧
      r'.bodyParsed = true ∧ ∃ files us u, r'.files = some files ∧ Dict.get? files name = some (us ++ [u]) ∧
        u.view w'.heap = (setName fn, data.length, none) := by
  obtain ⟨r0, s, h1, h2, h3, h4, h5, h6, h7⟩ := multipart_arrives h hty hlo hb hbo hcl hn hne hmem hl
    (by simp [gated])
  obtain ⟨R, s', w', k1, -, k3, k4⟩ := gated_builtin (L := L) E.C hC (charsetAfter S ps) h5 gate os hos E.fuel64
    ⟨b, _, n⟩ h4 h0 hs heap ht s h2 (by rw [h3]; exact hf) _ (by rw [h3]; exact hread)
  obtain ⟨post, files, k5, k6⟩ := k4 hd g false rfl
  cases R with
  | error e => simp [viewOf, Except.map] at k5
  | ok x =>
    obtain ⟨post', files'⟩ := x
    obtain ⟨r', a1, a2, a3, -, a5⟩ := h6 post' files' s' w' k1 (k3 g (.inr rfl)).2 (k3 g (.inr rfl)).1
    simp only [viewOf, Except.map, Except.ok.injEq, Prod.mk.injEq] at k5
    obtain ⟨-, rfl⟩ := k5
    obtain ⟨vs, k7⟩ := k6 (name, fn, data) (by rw [hg]; simp)
    have hget : ∀ d : MVD Uploaded, Dict.get? (List.map (fun q => (q.1, q.2.map (Uploaded.view w'.heap))) d) name =
        (Dict.get? d name).map (List.map (Uploaded.view w'.heap)) := by
      intro d
      induction d with
      | nil => rfl
      | cons q d ih =>
        obtain ⟨k, v⟩ := q
        simp only [List.map_cons, Dict.get?]
        split
        · rfl
        · exact ih
    have k8 := (hget files').symm.trans k7
    cases hx : Dict.get? files' name with
    | none => rw [hx] at k8; cases k8
    | some us =>
      rw [hx] at k8
      simp only [Option.map_some, Option.some.injEq] at k8
      obtain ⟨us', l, rfl, e1, e2⟩ := List.map_eq_append_iff.1 k8
      obtain ⟨u, rfl, e3⟩ := List.map_eq_singleton_iff.1 e2
      exact ⟨r0, r', w', h1, a1, a2, a3, files', us', u, a5, hx, e3⟩

end

/-- The second of two files is skipped: however the request is cut, it is accepted and has the first one. -/
example (cs : List Bytes) (h : cs.flatten = (formMessage twoFiles).text) :
    let E : Env Source BWorld Uploaded := ⟨latinCodecs, [],
      fun _ => (.ok (gated (refuseS .skipFile) (builtinOps Source goodOs 1)), ⟨[.temp {}], []⟩), 1000⟩
    ∃ (r0 r' : Req Source BWorld Uploaded) (w' : BWorld) (R : Except Exc Unit), Req.new E.C {} ⟨cs⟩ = .ok r0 ∧
      parseRequest E {} r0 ⟨[], []⟩ = (R, {}, r', w') ∧
      HeadRead (formMessage twoFiles) b!"a.b" [] (some b!"multipart/form-data") [] r' ∧
      R = .ok () ∧ r'.bodyParsed = true ∧ ∃ post files, r'.post = some (.form post) ∧ r'.files = some files ∧
        SameButClosed (viewOf (.ok (post, files)) w'.heap) (.ok ([], [(b!"f", [(b!"a", 5, some b!"hello")])])) := by
  intro E
  exact C100_request_partial (E := E) (formMessage_arrives (latin_asciiCodec _) twoFiles cs h) (by decide)
    (by decide +kernel) (b := b!"B") (by decide +kernel) boundaryB rfl three_hundred (by decide) (by decide)
    (fun b => latin_avoids (by simp) (by simp)) ⟨_, rfl, by decide⟩ goodOs (fun _ => rfl)
    (w := ⟨[], []⟩) (hs := [.temp {}]) (heap := []) rfl ⟨⟨.temp {}, by simp, trivial⟩, by intro h hh _; decide⟩
    (by decide +kernel) _ (by simp) twoFiles_reads

/-- The upload is stopped at the second file: the request is accepted and the first file cannot be read. -/
example (cs : List Bytes) (h : cs.flatten = (formMessage twoFiles).text) :
    let E : Env Source BWorld Uploaded := ⟨latinCodecs, [],
      fun _ => (.ok (gated (refuseS (.stopUpload false)) (builtinOps Source goodOs 1)), ⟨[.temp {}], []⟩), 1000⟩
    ∃ (r0 r' : Req Source BWorld Uploaded) (w' : BWorld), Req.new E.C {} ⟨cs⟩ = .ok r0 ∧
      parseRequest E {} r0 ⟨[], []⟩ = (.ok (), {}, r', w') ∧
      HeadRead (formMessage twoFiles) b!"a.b" [] (some b!"multipart/form-data") [] r' ∧
      r'.bodyParsed = true ∧ ∃ files us u, r'.files = some files ∧ Dict.get? files b!"f" = some (us ++ [u]) ∧
        u.view w'.heap = (b!"a", 5, none) := by
  intro E
  exact C101_request_refuted (E := E) (formMessage_arrives (latin_asciiCodec _) twoFiles cs h) (by decide)
    (by decide +kernel) (b := b!"B") (by decide +kernel) boundaryB rfl three_hundred (by decide) (by decide)
    (fun b => latin_avoids (by simp) (by simp)) ⟨_, rfl, by decide⟩ goodOs (fun _ => rfl)
    (w := ⟨[], []⟩) (hs := [.temp {}]) (heap := []) rfl ⟨⟨.temp {}, by simp, trivial⟩, by intro h hh _; decide⟩
    (by simp [Builtin.Direct]) (by decide +kernel) _ [] b!"f" b!"a" b!"hello" rfl (twoFiles_stopped false)

end Verif
