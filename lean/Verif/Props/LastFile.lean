import Verif.Props.Epilogue
/-!
# The file before a separator that ends the body is lost (C26)
-/

namespace Verif
open Spec

/-- The last part is a file, and nothing follows its separator. -/
theorem reads_last_file {C : Codecs} {S : Settings} (hcs : ∀ n, (∀ c ∈ n, c < 128) → C.strEncode S.defaultCharset n = .ok n)
    {boundary : Bytes} (h13 : 13 ∉ boundary) {pre : Option Bytes}
    (hpre : ∀ p, pre = some p → ¬ (b!"--" ++ boundary) <:+: p ∧ ¬ b!"\r\n\r\n" <:+: p ∧ p.length < 1024)
    (ps : List Sent) (q : Sent) (hok : ∀ p ∈ ps ++ [q], p.Ok C boundary) {name fn c : Bytes} (hq : q.said = .file name fn c)
    (hlim : SaidInLimits S (ps.map Sent.said)) :
    Reads C S (b!"--" ++ boundary) (sentBody boundary pre (ps ++ [q]) []) ⟨[], [], none, 0, 0⟩
      (.ok { saidGhost (ps.map Sent.said) with old := some (name, fn, c) }) := by
  obtain ⟨h1, h2⟩ := hok q (by simp)
  have hfo : saidFields (ps.map Sent.said ++ [q.said]) = saidFields (ps.map Sent.said) := by
    simp [saidFields, List.filterMap_append, hq]
  have hfi : saidFiles (ps.map Sent.said ++ [q.said]) = saidFiles (ps.map Sent.said) ++ [(name, fn, c)] := by
    simp [saidFiles, List.filterMap_append, hq]
  have hlim' : SaidInLimits S (ps.map Sent.said ++ [q.said]) := ⟨by rw [hfo]; exact hlim.1, by rw [hfo]; exact hlim.2⟩
  have h := reads_body (S := S) (rest := q.text ++ b!"\r\n" ++ (b!"--" ++ boundary) ++ [])
    (res := .ok { saidGhost (ps.map Sent.said) with old := some (name, fn, c) }) hcs h13 hpre ps
    (fun p hp => hok p (by simp [hp])) hlim (fun g hg => by
      obtain ⟨c1, c2⟩ := cut_form (rest := []) h13 h1.noSep
      obtain ⟨t, md, g', e1, e2, e3⟩ := partReads_ext hcs h1 h2 hg hlim' (q.text.length < 1024)
      have k1 := e3.keys
      have k2 := e3.files
      rw [hfo, ← hg.keys] at k1
      rw [hfi, ← hg.files] at k2
      have hg' : g' = { saidGhost (ps.map Sent.said) with old := some (name, fn, c) } := by
        cases e2 with
        | unnamed => simp [Ghost.close] at k2
        | field => simp [Ghost.close] at k1
        | lost => simp [Ghost.close] at k1
        | noFile => simp [Ghost.close] at k2
        | file =>
          simp only [Ghost.close, Option.toList_some, List.append_assoc, List.append_cancel_left_eq, List.cons.injEq, and_true] at k2
          simp only [Ghost.close, saidGhost, ← hg.post, ← hg.files, ← hg.keys, ← hg.bytes, k2]
      subst hg'
      refine .part (by simp) (by rw [c1]; exact e1) (by rw [c1]; exact e2) ?_
      rw [c2]
      exact .done)
  unfold sentBody at h ⊢
  rw [List.flatMap_append, List.flatMap_cons, List.flatMap_nil, List.append_nil, List.append_nil]
  simpa using h

/-- **C26 is false for every form that ends in a file**: with nothing after the last separator, the last file is not in
`FILES`; all else is as it was sent. -/
theorem C26_form_refuted {ρ : Type} [Producer ρ] {L : Lawful ρ} (C : Codecs) (hC : ∀ b, C.Avoids (.stopUpload b))
    (S : Settings) (hS : ∀ k, S.dataMaxMemory = some k → 0 ≤ k) (hq : emptyQueryDict C S = .ok ())
    (hcs : ∀ n, (∀ c ∈ n, c < 128) → C.strEncode S.defaultCharset n = .ok n)
    (os : Os) (hos : ∀ e, os.tempFile e = .ok ()) (fuel64 : Nat) (m : MultiPart) (hc : 1 ≤ m.chunkSize)
    (hl : m.contentLength ≠ 0) (h13 : 13 ∉ m.boundary) {pre : Option Bytes}
    (hpre : ∀ p, pre = some p → ¬ (b!"--" ++ m.boundary) <:+: p ∧ ¬ b!"\r\n\r\n" <:+: p ∧ p.length < 1024)
    (hs : List Builtin) (heap : Heap) (ht : Takes S m.contentLength hs)
    (ps : List Sent) (q : Sent) (hok : ∀ p ∈ ps ++ [q], p.Ok C m.boundary) {name fn c : Bytes} (hf : q.said = .file name fn c)
    (hlim : SaidInLimits S (ps.map Sent.said))
    (input : LazyStream ρ) (hi : SOK L input) (hfu : (L.sc input).length ≤ fuel64)
    (hin : L.sc input = sentBody m.boundary pre (ps ++ [q]) []) :
    viewOf (m.parse C S (builtinOps ρ os hs.length) fuel64 input ⟨hs, heap⟩).1
        (m.parse C S (builtinOps ρ os hs.length) fuel64 input ⟨hs, heap⟩).2.2.heap =
      .ok (saidView (ps.map Sent.said)) := by
  rw [C85_meaning (L := L) C hC S hS hq os hos fuel64 m hc hl hs heap ht input hi hfu _
    (by rw [hin]; exact reads_last_file hcs h13 hpre ps q hok hf hlim),
    ← saidGhost_view (boundary := m.boundary) (C := C) (fun p hp => hok p (by simp [hp]))]
  rfl

section
variable {ρ : Type} [Producer ρ] {L : Lawful ρ} {E : Env ρ BWorld Uploaded} {S : Settings} {p : ρ} {m : Message}
  {host port type : Bytes} {ps : List (Bytes × Bytes)} {qs : List (UStr × UStr)} {b cl : Bytes} {n : Nat}
  {w : BWorld} {hs : List Builtin} {heap : Heap}

/-- **C26 is false for whole requests that end in the separator after a file.** -/
theorem C26_request_refuted (h : Arrives L E.C S p m host port (some type) ps qs)
    (hty : b!"multipart/" <+: type) (hlo : Py.lower type = b!"multipart/form-data")
    (hb : param ps b!"boundary" = some b) (hbo : BoundaryOk (Py.toU b)) (h13 : 13 ∉ b)
    (hcl : m.header b!"Content-Length" = some cl) (hn : Numeral 10 DecDigit cl n) (h0 : n ≠ 0)
    (hC : ∀ b, E.C.Avoids (.stopUpload b)) (hS : ∀ k, S.dataMaxMemory = some k → 0 ≤ k) (hmem : Allowed S.dataMaxMemory 0)
    (os : Os) (hos : ∀ e, os.tempFile e = .ok ()) (hl : E.load w = (.ok (builtinOps ρ os hs.length), ⟨hs, heap⟩))
    (ht : Takes S n hs) (hf : m.body.length ≤ E.fuel64) {pre : Option Bytes}
    (hpre : ∀ p, pre = some p → ¬ (b!"--" ++ b) <:+: p ∧ ¬ b!"\r\n\r\n" <:+: p ∧ p.length < 1024)
    (sent : List Sent) (q : Sent) (hok : ∀ p ∈ sent ++ [q], p.Ok E.C b) {name fn c : Bytes} (hq : q.said = .file name fn c)
    (hlim : SaidInLimits S (sent.map Sent.said)) (hbody : m.body = sentBody b pre (sent ++ [q]) []) :
    ∃ (r0 r' : Req ρ BWorld Uploaded) (w' : BWorld), Req.new E.C S p = .ok r0 ∧
      parseRequest E S r0 w = (.ok (), charsetAfter S ps, r', w') ∧ HeadRead m host port (some type) qs r' ∧
      r'.bodyParsed = true ∧ r'.view w'.heap = some (saidView (sent.map Sent.said)) := by
  have hST := charsetAfter_fields S ps
  have hne : m.body ≠ [] := by rw [hbody]; cases pre <;> simp [sentBody]
  have := C85_request h hty hlo hb hbo hcl hn h0 hne hC hS hmem os hos hl ht hf _
    (by rw [hbody]; exact reads_last_file h.codec.str h13 hpre sent q hok hq
          ⟨by rw [hST.1]; exact hlim.1, by rw [hST.2.1]; exact hlim.2⟩)
  rw [← saidGhost_view (boundary := b) (C := E.C) (fun p hp => hok p (by simp [hp]))]
  exact this

/-! ### The hypotheses are met -/

/-- The file of the example for C133 is lost, however the request is cut. -/
example (cs : List Bytes)
    (h : cs.flatten = (formMessage (sentBody b!"B" (some b!"hello") [sentNote, sentFile] [])).text) :
    ∃ (r0 r' : Req Source BWorld Uploaded) (w' : BWorld), Req.new pyCodecs {} ⟨cs⟩ = .ok r0 ∧
      parseRequest (tempEnv 1000) {} r0 ⟨[], []⟩ = (.ok (), charsetAfter {} [(b!"boundary", b!"B")], r', w') ∧
      r'.bodyParsed = true ∧ r'.view w'.heap = some (saidView ([sentNote].map Sent.said)) := by
  obtain ⟨r0, r', w', h1, h2, -, h3⟩ := C26_request_refuted (E := tempEnv 1000) (formMessage_arrives py_latin1 _ cs h) (by decide)
    (by decide +kernel) (b := b!"B")
    (by decide +kernel) boundaryB (by decide) rfl three_hundred (by decide) pyCodecs_default.1
    (by intro k hk; cases hk; decide) ⟨_, rfl, by decide⟩ goodOs (fun _ => rfl) (w := ⟨[], []⟩) (hs := [.temp {}]) rfl
    ⟨⟨.temp {}, by simp, trivial⟩, by simp⟩ (by decide +kernel)
    (fun p hp => ⟨sentBoth_ok.2.2.1.preSep p hp, sentBoth_ok.2.2.1.preHead p hp, sentBoth_ok.2.2.1.preShort p hp⟩)
    [sentNote] sentFile sentBoth_ok.1 rfl (SaidInLimits.left (b := [sentFile.said]) sentBoth_ok.2.1) rfl
  exact ⟨r0, r', w', h1, h2, h3⟩

end

end Verif
