import Verif.Props.EmptyRequest
/-!
# A form that follows the closing separator belongs to the form (C27)
-/

namespace Verif
open Spec

/-- A part that begins with `--` is read like the part without it. -/
theorem PartHead.dashes {C : Codecs} {boundary : Bytes} {fs : List ExtField} {content text : Bytes}
    (h : PartText C boundary fs content text) (hs : text.length + 2 ≤ content.length + 1024) {t : ItemType} {md : MetaData}
    (hp : PartHead C text t md content) (ht : t ≠ .raw) : PartHead C (b!"--" ++ text) t md content := by
  obtain ⟨lines, hl, hs', rfl⟩ := h.written
  have hok : ∀ l ∈ lines, l ≠ [] ∧ 13 ∉ l := by
    intro l hm
    obtain ⟨f, hf⟩ := forall₂_left hl.flip l hm
    refine ⟨?_, hf.oneLine⟩
    obtain ⟨s, -, rfl⟩ := hf.text
    simp
  generalize hH : lines.flatMap (fun l => b!"\r\n" ++ l) = H at *
  have hlen : H.length + 6 ≤ 1024 := by
    simp only [List.length_append, List.length_cons, List.length_nil] at hs
    omega
  have find : ∀ c : Bytes, Py.find b!"\r\n\r\n" (H ++ b!"\r\n\r\n" ++ c) = some H.length := fun c => by
    rw [← hH]; exact find_head _ _ hok
  have hf : Py.find b!"\r\n\r\n" ((H ++ b!"\r\n\r\n" ++ content).take 1024) = some H.length := by
    rw [List.take_append, List.take_of_length_le (by simp; omega)]
    exact find _
  have hf2 : Py.find b!"\r\n\r\n" ((b!"--" ++ (H ++ b!"\r\n\r\n" ++ content)).take 1024) = some (H.length + 2) := by
    rw [List.take_append, List.take_of_length_le (by simp), List.take_append, List.take_of_length_le (by simp; omega)]
    generalize List.take _ content = c
    have := find c
    simp only [List.cons_append, List.nil_append, Py.find, List.isPrefixOf, this]
    simp
  have e0 : parsePartHeader C [] = .error .valueError := rfl
  have e1 : parsePartHeader C b!"--" = .error .valueError := rfl
  have htk : (H ++ b!"\r\n\r\n" ++ content).take H.length = H := by simp
  have htk2 : (b!"--" ++ (H ++ b!"\r\n\r\n" ++ content)).take (H.length + 2) = b!"--" ++ H := by simp
  obtain ⟨c', hc, hp⟩ : ∃ c', c' = content ∧ PartHead C (H ++ b!"\r\n\r\n" ++ content) t md c' := ⟨_, rfl, hp⟩
  cases hp with
  | noHeader hn => rw [hf] at hn; cases hn
  | rawHeader => exact absurd rfl ht
  | @header i _ _ g1 g2 _ =>
    rw [hf] at g1
    cases g1
    rw [htk, ← hH, splitPair_head _ (fun l hm => (hok l hm).2)] at g2
    simp only [partHeaders, e0, Exc.isValueError, if_true] at g2
    have := PartHead.header (C := C) (P := b!"--" ++ (H ++ b!"\r\n\r\n" ++ content)) (t := t) (md := md) hf2 (by
      rw [htk2, splitPair_skip (by decide), ← hH, splitPair_head _ (fun l hm => (hok l hm).2)]
      simp only [partHeaders, e1, Exc.isValueError, List.headD_cons, List.tail_cons, List.append_nil, if_true]
      exact g2) ht
    rwa [show (b!"--" ++ (H ++ b!"\r\n\r\n" ++ content)).drop (H.length + 2 + 4) = content by
      rw [show H.length + 2 + 4 = (b!"--" ++ (H ++ b!"\r\n\r\n")).length by simp,
        show b!"--" ++ (H ++ b!"\r\n\r\n" ++ content) = b!"--" ++ (H ++ b!"\r\n\r\n") ++ content by simp,
        List.drop_left]] at this

theorem noSep_dashes {boundary text : Bytes} (h13 : 13 ∉ boundary) (hne : boundary ≠ []) (ht : text.head? = some 13)
    (h : ¬ (b!"--" ++ boundary) <:+: text) : ¬ (b!"--" ++ boundary) <:+: b!"--" ++ text := by
  obtain ⟨t, rfl⟩ : ∃ t, text = 13 :: t := by
    cases text with
    | nil => cases ht
    | cons c t => cases ht; exact ⟨t, rfl⟩
  intro hc
  have hc : (45 :: 45 :: boundary) <:+: (45 :: 45 :: 13 :: t) := hc
  rw [List.infix_cons_iff, List.infix_cons_iff] at hc
  rcases hc with hc | hc | hc
  · rw [List.cons_prefix_cons, List.cons_prefix_cons] at hc
    cases boundary with
    | nil => exact hne rfl
    | cons b bs =>
      have := (List.cons_prefix_cons.1 hc.2.2).1
      exact h13 (by simp [this])
  · rw [List.cons_prefix_cons, List.cons_prefix_cons] at hc
    exact absurd hc.2.1 (by decide)
  · exact h hc

/-- The parts `qs`, after a closing separator, are read like parts before it. -/
theorem reads_following {C : Codecs} {S : Settings} (hcs : ∀ n, (∀ c ∈ n, c < 128) → C.strEncode S.defaultCharset n = .ok n)
    {boundary : Bytes} (h13 : 13 ∉ boundary) (hne : boundary ≠ []) {pre : Option Bytes} {epi : Bytes} (ha : Around boundary pre epi)
    (ps : List Sent) (q : Sent) (qs : List Sent) (hok : ∀ p ∈ ps ++ q :: qs, p.Ok C boundary)
    (hq : q.text.length + 2 ≤ q.content.length + 1024) (hlim : SaidInLimits S ((ps ++ q :: qs).map Sent.said)) :
    Reads C S (b!"--" ++ boundary) (sentBody boundary pre ps
        (b!"--" ++ ((q :: qs).flatMap (fun p => p.text ++ b!"\r\n" ++ (b!"--" ++ boundary)) ++ (b!"--" ++ epi))))
      ⟨[], [], none, 0, 0⟩ (.ok (saidGhost ((ps ++ q :: qs).map Sent.said))) := by
  have hhead : ¬ b!"\r\n\r\n" <:+: b!"--" ++ epi := by
    intro hc
    apply ha.epiHead
    obtain ⟨a, b, e⟩ := hc
    match a, e with
    | [], e => simp at e
    | [_], e => simp at e
    | _ :: _ :: a, e =>
      simp only [List.cons_append, List.append_assoc, List.cons.injEq, List.nil_append] at e
      exact ⟨a, b, by simpa using e.2.2⟩
  obtain ⟨h1, h2⟩ := hok q (by simp)
  have hlim' : SaidInLimits S ((ps.map Sent.said ++ [q.said]) ++ qs.map Sent.said) := by simpa using hlim
  refine reads_body hcs h13 (fun p hp => ⟨ha.preSep p hp, ha.preHead p hp, ha.preShort p hp⟩) ps
    (fun p hp => hok p (by simp [hp])) hlim'.left.left (fun g hg => ?_)
  have hhd : q.text.head? = some 13 := by
    obtain ⟨lines, -, -, e⟩ := h1.written
    rw [e]
    cases lines <;> rfl
  rw [List.flatMap_cons, List.append_assoc, show ∀ x y : Bytes, b!"--" ++ (x ++ b!"\r\n" ++ (b!"--" ++ boundary) ++ y) =
    (b!"--" ++ x) ++ b!"\r\n" ++ (b!"--" ++ boundary) ++ y from fun _ _ => by simp]
  generalize hr : qs.flatMap (fun p => p.text ++ b!"\r\n" ++ (b!"--" ++ boundary)) ++ (b!"--" ++ epi) = rest' at *
  obtain ⟨c1, c2⟩ := cut_form (rest := rest') h13 (noSep_dashes h13 hne hhd h1.noSep)
  obtain ⟨t, md, g', e1, e2, e3⟩ := partReads_ext hcs h1 h2 hg hlim'.left ((b!"--" ++ q.text).length < 1024)
  have ht : t ≠ .raw := by
    rintro rfl
    cases e2 with
    | unnamed =>
      have k1 := e3.keys
      have k2 := congrArg List.length e3.files
      simp only [Ghost.close, hg.keys, Option.toList_none, List.append_nil, hg.files, saidFields, saidFiles,
        List.filterMap_append, List.length_append] at k1 k2
      cases hx : q.said <;> simp [hx] at k1 k2
    | field _ _ h => cases h
    | lost _ _ h => cases h
    | noFile _ _ h => cases h
    | file _ _ h => cases h
  refine .part (by simp) (by rw [c1]; exact e1.dashes h1 hq ht) (by rw [c1]; exact e2) ?_
  rw [c2, ← hr]
  refine reads_sent hcs h13 qs (ps.map Sent.said ++ [q.said]) g' (fun p hp => hok p (by simp [hp])) e3 hlim' (fun g'' hg'' => ?_)
  have := Reads.rest (C := C) (S := S) (g := g'') (by simp) ha.epiSep hhead
  have e : g''.close = saidGhost ((ps ++ q :: qs).map Sent.said) := by
    have hx : (ps ++ q :: qs).map Sent.said = (ps.map Sent.said ++ [q.said]) ++ qs.map Sent.said := by simp
    rw [hx, saidGhost, ← hg''.post, ← hg''.files, ← hg''.keys, ← hg''.bytes]; rfl
  rwa [e] at this

/-- **C27 is false for every form and every form after it**: after the closing separator the parts `q` and `qs` are read
like the parts `ps` before it. -/
theorem C27_form_refuted {ρ : Type} [Producer ρ] {L : Lawful ρ} (C : Codecs) (hC : ∀ b, C.Avoids (.stopUpload b))
    (S : Settings) (hS : ∀ k, S.dataMaxMemory = some k → 0 ≤ k) (hq : emptyQueryDict C S = .ok ())
    (hcs : ∀ n, (∀ c ∈ n, c < 128) → C.strEncode S.defaultCharset n = .ok n)
    (os : Os) (hos : ∀ e, os.tempFile e = .ok ()) (fuel64 : Nat) (m : MultiPart) (hc : 1 ≤ m.chunkSize)
    (hl : m.contentLength ≠ 0) (h13 : 13 ∉ m.boundary) (hne : m.boundary ≠ []) {pre : Option Bytes} {epi : Bytes}
    (ha : Around m.boundary pre epi) (hs : List Builtin) (heap : Heap) (ht : Takes S m.contentLength hs)
    (ps : List Sent) (q : Sent) (qs : List Sent) (hok : ∀ p ∈ ps ++ q :: qs, p.Ok C m.boundary)
    (hq2 : q.text.length + 2 ≤ q.content.length + 1024) (hlim : SaidInLimits S ((ps ++ q :: qs).map Sent.said))
    (input : LazyStream ρ) (hi : SOK L input) (hf : (L.sc input).length ≤ fuel64)
    (hin : L.sc input = sentBody m.boundary pre ps (b!"--" ++
      ((q :: qs).flatMap (fun p => p.text ++ b!"\r\n" ++ (b!"--" ++ m.boundary)) ++ (b!"--" ++ epi)))) :
    viewOf (m.parse C S (builtinOps ρ os hs.length) fuel64 input ⟨hs, heap⟩).1
        (m.parse C S (builtinOps ρ os hs.length) fuel64 input ⟨hs, heap⟩).2.2.heap =
      .ok (saidView ((ps ++ q :: qs).map Sent.said)) := by
  rw [C85_meaning (L := L) C hC S hS hq os hos fuel64 m hc hl hs heap ht input hi hf _
    (by rw [hin]; exact reads_following hcs h13 hne ha ps q qs hok hq2 hlim), ← saidGhost_view hok]
  rfl

section
variable {ρ : Type} [Producer ρ] {L : Lawful ρ} {E : Env ρ BWorld Uploaded} {S : Settings} {p : ρ} {m : Message}
  {host port type : Bytes} {ps : List (Bytes × Bytes)} {qs : List (UStr × UStr)} {b cl : Bytes} {n : Nat}
  {w : BWorld} {hs : List Builtin} {heap : Heap}

/-- **C27 is false for whole requests**: `POST` and `FILES` have the fields and files of every form after the closing
separator too. -/
theorem C27_request_refuted (h : Arrives L E.C S p m host port (some type) ps qs)
    (hty : b!"multipart/" <+: type) (hlo : Py.lower type = b!"multipart/form-data")
    (hb : param ps b!"boundary" = some b) (hbo : BoundaryOk (Py.toU b)) (h13 : 13 ∉ b)
    (hcl : m.header b!"Content-Length" = some cl) (hn : Numeral 10 DecDigit cl n) (h0 : n ≠ 0)
    (hC : ∀ b, E.C.Avoids (.stopUpload b)) (hS : ∀ k, S.dataMaxMemory = some k → 0 ≤ k) (hmem : Allowed S.dataMaxMemory 0)
    (os : Os) (hos : ∀ e, os.tempFile e = .ok ()) (hl : E.load w = (.ok (builtinOps ρ os hs.length), ⟨hs, heap⟩))
    (ht : Takes S n hs) (hf : m.body.length ≤ E.fuel64)
    {pre : Option Bytes} {epi : Bytes} (ha : Around b pre epi) (sent : List Sent) (q : Sent) (more : List Sent)
    (hok : ∀ p ∈ sent ++ q :: more, p.Ok E.C b) (hq2 : q.text.length + 2 ≤ q.content.length + 1024)
    (hlim : SaidInLimits S ((sent ++ q :: more).map Sent.said))
    (hbody : m.body = sentBody b pre sent (b!"--" ++
      ((q :: more).flatMap (fun p => p.text ++ b!"\r\n" ++ (b!"--" ++ b)) ++ (b!"--" ++ epi)))) :
    ∃ (r0 r' : Req ρ BWorld Uploaded) (w' : BWorld), Req.new E.C S p = .ok r0 ∧
      parseRequest E S r0 w = (.ok (), charsetAfter S ps, r', w') ∧ HeadRead m host port (some type) qs r' ∧
      r'.bodyParsed = true ∧ r'.view w'.heap = some (saidView ((sent ++ q :: more).map Sent.said)) := by
  have hST := charsetAfter_fields S ps
  have hne : m.body ≠ [] := by rw [hbody]; cases pre <;> simp [sentBody]
  have hbne : b ≠ [] := by
    rintro rfl
    obtain ⟨t, c, hh, _⟩ := hbo
    rcases hh with hh | hh <;> simp [Py.toU] at hh
  have := C85_request h hty hlo hb hbo hcl hn h0 hne hC hS hmem os hos hl ht hf
    (.ok (saidGhost ((sent ++ q :: more).map Sent.said)))
    (by rw [hbody]; exact reads_following h.codec.str h13 hbne ha sent q more hok hq2
          ⟨by rw [hST.1]; exact hlim.1, by rw [hST.2.1]; exact hlim.2⟩)
  rw [← saidGhost_view hok]
  exact this

/-! ### The hypotheses are met -/

/-- The file after the closing separator, however the request is cut. -/
example (cs : List Bytes)
    (h : cs.flatten = (formMessage (sentBody b!"B" (some b!"hello") [sentNote] (b!"--" ++
      ([sentFile].flatMap (fun p => p.text ++ b!"\r\n" ++ (b!"--" ++ b!"B")) ++ (b!"--" ++ b!"\r\n"))))).text) :
    ∃ (r0 r' : Req Source BWorld Uploaded) (w' : BWorld), Req.new pyCodecs {} ⟨cs⟩ = .ok r0 ∧
      parseRequest (tempEnv 1000) {} r0 ⟨[], []⟩ = (.ok (), charsetAfter {} [(b!"boundary", b!"B")], r', w') ∧
      r'.bodyParsed = true ∧ r'.view w'.heap = some (saidView ([sentNote, sentFile].map Sent.said)) := by
  obtain ⟨r0, r', w', h1, h2, -, h3⟩ := C27_request_refuted (E := tempEnv 1000) (formMessage_arrives py_latin1 _ cs h) (by decide)
    (by decide +kernel) (b := b!"B")
    (by decide +kernel) boundaryB (by decide) rfl three_hundred (by decide) pyCodecs_default.1
    (by intro k hk; cases hk; decide) ⟨_, rfl, by decide⟩ goodOs (fun _ => rfl) (w := ⟨[], []⟩) (hs := [.temp {}]) rfl
    ⟨⟨.temp {}, by simp, trivial⟩, by simp⟩ (by decide +kernel) sentBoth_ok.2.2.1 [sentNote] sentFile [] sentBoth_ok.1
    (by decide +kernel) sentBoth_ok.2.1 rfl
  exact ⟨r0, r', w', h1, h2, h3⟩

end

end Verif
