import Verif.Props.Meant
import Verif.Props.Load
/-!
# C144 for uploads: what was refused has been read

The multipart parser takes the body in pieces of the chunk size, 64 KiB with the upload handlers of the library.  A body that
fits into one piece has been read to its end when the parser fails, whatever the reason, so `parse()` called again finds
nothing and reports success.
-/

namespace Verif
open Spec

section
variable {ρ : Type} [Producer ρ]

/-- Pieces of a stream that fits into one piece: before the first one everything is there, after it nothing. -/
def onePiece (L : Lawful ρ) (c0 : ChunkIter ρ) (h0 : (L.sc c0.flo).length ≤ c0.chunkSize) : Lawful (ChunkIter ρ) where
  Inv c := (ChunkIter.lawful L).Inv c ∧ (L.sc c.flo = [] ∨ c = c0)
  End := (ChunkIter.lawful L).End
  content := (ChunkIter.lawful L).content
  next_spec := by
    rintro c ⟨⟨h1, h2, h3⟩, h4⟩
    obtain ⟨s', a1, a2, a3, a4, a5, a6, a7, a8⟩ := LazyStream.read_ok L 39 (le_refl _) c.chunkSize c.flo h1 h3
    have hs' : L.sc s' = [] := by
      rw [a3]
      rcases h4 with h4 | rfl
      · rw [h4, List.drop_nil]
      · exact List.drop_eq_nil_iff.2 h0
    rcases (ChunkIter.lawful L).next_spec c ⟨h1, h2, h3⟩ with ⟨p', e, b1, b2, b3, b4, b5⟩ | ⟨d, p', e, b1, b2, b3, b4⟩
    · exact .inl ⟨p', e, ⟨b1, .inl b4⟩, b2, b3, b4, b5⟩
    · refine .inr ⟨d, p', e, ⟨b1, .inl ?_⟩, b2, b3, b4⟩
      have e' : Producer.next c = ((ChunkIter.next c).1, (ChunkIter.next c).2) := rfl
      have : p'.flo = s' := by
        rw [e'] at e
        simp only [ChunkIter.next, a1, Prod.mk.injEq] at e
        rw [← e.2]
      rw [this]; exact hs'

/-- The loop over the parts makes the body shorter, also if it fails. -/
theorem partsLoop_shorter {σ F : Type} (L : Lawful (ChunkIter ρ)) (C : Codecs) (S : Settings) (H : HandlerOps ρ σ F)
    (fuel64 : Nat) {sep : Bytes} (hs : SepOK sep) :
    ∀ (fuel : Nat) (s : LazyStream (ChunkIter ρ)) (st : PState σ F), L.Inv s.producer →
      Strong s.history s.leftover.length → s.length = none → s.size < fuel →
      ∃ r s' st', partsLoop C S H fuel64 sep fuel s st = (r, s', st') ∧ L.Inv s'.producer ∧
        (L.sc s ≠ [] → (L.sc s').length < (L.sc s).length) ∧ (L.sc s = [] → L.sc s' = []) := by
  intro fuel
  induction fuel with
  | zero => intro s st _ _ _ h; omega
  | succ fuel ih =>
    intro s st hI hH hl hf
    unfold partsLoop
    rcases nextPart_spec L ChunkIter.nonEmpty hs s hI hH hl with
      ⟨s', e, h1, h2, h3, _, h4⟩ | ⟨b, e, h1, h2, h3, h4⟩
    · rw [e]
      exact ⟨_, s', st, rfl, h3, fun h => absurd h1 h, fun _ => h2⟩
    · rw [e]
      simp only
      rcases parseBoundaryStream_spec L C ChunkIter.nonEmpty hs (L.sc s) s.size h1 b h2 h3 h4 with
        ⟨e, s', a1, a2, a3⟩ | ⟨t, md, content, s', a1, a2, a3, a4, a5⟩
      · rw [a1]
        obtain ⟨g1, _, _, g4, _⟩ := lawful_progress L ChunkIter.nonEmpty hs _ _ h1 _ a3.inv
        exact ⟨_, _, st, rfl, g1, fun _ => g4, fun h => absurd h h1⟩
      · rw [a1]
        simp only
        obtain ⟨bb, r, s2, st2, b1, b2, _⟩ := handlePart_spec C S H fuel64 t md s' st a3 (partHead_raw a2)
        rw [b1]
        obtain ⟨g1, g2, g3, g4, g5, g6, g7⟩ := lawful_progress L ChunkIter.nonEmpty hs _ _ h1 _ b2
        rcases r with e | u
        · exact ⟨_, _, st2, rfl, g1, fun _ => g4, fun h => absurd h h1⟩
        · simp only
          obtain ⟨r, s3, st3, c1, c2, c3, c4⟩ := ih s2.producer.stream st2 g1 g2 g6 (by omega)
          refine ⟨r, s3, st3, c1, c2, fun _ => ?_, fun h => absurd h h1⟩
          by_cases hn : L.sc s2.producer.stream = []
          · rw [c4 hn]; exact List.length_pos_iff.2 h1
          · exact (c3 hn).trans g4

/-- A body that fits into one piece has been read to its end when the parser is done with it, whether it failed or not. -/
theorem parse_one_piece {σ F : Type} (L : Lawful ρ) (C : Codecs) (S : Settings) (H : HandlerOps ρ σ F) (fuel64 : Nat)
    (m : MultiPart) (hc : 1 ≤ m.chunkSize) (hl : m.contentLength ≠ 0) (hq : emptyQueryDict C S = .ok ())
    (input : LazyStream ρ) (w w1 : σ)
    (hraw : rawInputLoop H { contentLength := m.contentLength, boundary := m.boundary, settings := S }
      (List.range H.count) input w = (.ok none, input, w1)) (hi : SOK L input) (hne : L.sc input ≠ [])
    (hsm : (L.sc input).length ≤ m.chunkSize) :
    L.Inv (m.parse C S H fuel64 input w).2.1.producer ∧ L.sc (m.parse C S H fuel64 input w).2.1 = [] := by
  unfold MultiPart.parse
  rw [if_neg hl, hraw]
  simp only [hq]
  obtain ⟨r, s', st', a1, a2, a3, _⟩ := partsLoop_shorter (onePiece L ⟨input, m.chunkSize⟩ hsm) C S H fuel64
      (SepOK.dashes m.boundary) ((LazyStream.mk' (⟨input, m.chunkSize⟩ : ChunkIter ρ)).size + 1)
      (LazyStream.mk' ⟨input, m.chunkSize⟩) (PState.start H w1) ⟨⟨hi.inv, hc, hi.hist⟩, .inr rfl⟩
      (strong_nil_mk _) rfl (by omega)
  have hlt := a3 hne
  have hend : L.sc s'.producer.flo = [] := by
    rcases a2.2 with h | h
    · exact h
    · exfalso
      have e : (onePiece L ⟨input, m.chunkSize⟩ hsm).sc s' = s'.leftover ++ L.sc s'.producer.flo := rfl
      rw [e, h] at hlt
      have e2 : (onePiece L ⟨input, m.chunkSize⟩ hsm).sc (LazyStream.mk' ⟨input, m.chunkSize⟩) = L.sc input := rfl
      rw [e2, List.length_append] at hlt
      simp only at hlt
      omega
  have hinv : L.Inv s'.producer.flo.producer := a2.1.1
  have hfin : ∀ (s : LazyStream ρ) (st : PState σ F), (finishParse H s st).2.1 = s := by
    intro s st
    unfold finishParse
    rcases uploadCompleteLoop H (List.range H.count) st.world with ⟨(e | _), w⟩ <;> rfl
  unfold PState.start at a1
  rw [a1]
  obtain ⟨s2, b1, b2, b3, _⟩ := LazyStream.exhaust_spec L s'.producer.flo hinv
  rcases r with e | _
  · by_cases he : ∃ b, e = .stopUpload b
    · obtain ⟨b, rfl⟩ := he
      simp only
      rcases closeFiles H (List.range H.count) st'.world with ⟨(e | _), w2⟩
      · exact ⟨hinv, hend⟩
      · simp only
        split
        · rw [hfin]; exact ⟨hinv, hend⟩
        · rw [b1]; simp only; rw [hfin]; exact ⟨b2, b3⟩
    · cases e <;> first | exact ⟨hinv, hend⟩ | exact absurd ⟨_, rfl⟩ he
  · simp only
    rw [b1]; simp only; rw [hfin]; exact ⟨b2, b3⟩

variable {σ F : Type}

/-- The stream after a multipart body has been parsed is the stream the parser leaves. -/
theorem parseByType_upload {E : Env ρ σ F} {S : Settings} {H : HandlerOps ρ σ F} {r : Req ρ σ F} {w : σ}
    (hct : r.contentType = some (some b!"multipart/form-data")) (hc : H.count ≠ 0) {h : MVD Bytes}
    (hi : r.info.bind (·.headers) = some h) {m : MultiPart}
    (hm : MultiPart.create E.C H ((h.get? b!"Content-Type").bind List.getLast?)
      ((h.get? b!"Content-Length").bind List.getLast?) = .ok m)
    (ht : unicodeBoundary E.C ((h.get? b!"Content-Type").bind List.getLast?) = false) :
    (parseByType E S H r w).2.1.stream = (m.parse E.C S H E.fuel64 r.stream w).2.1 ∧
      (parseByType E S H r w).2.1.body_ = r.body_ := by
  unfold parseByType
  rw [hct]
  simp only
  rw [if_pos trivial]
  unfold parseFileUpload
  rw [hi]
  simp only
  rw [if_neg hc]
  simp only [hm, ht, MultiPart.run, Bool.false_eq_true, if_false]
  rcases m.parse E.C S H E.fuel64 r.stream w with ⟨(e | ⟨p, f⟩), s, w'⟩
  · simp only
    split
    · rename_i heq
      cases heq
      unfold markError
      cases queryDict E.C S none false <;> exact ⟨rfl, rfl⟩
    · rename_i heq; cases heq; exact ⟨rfl, rfl⟩
    · rename_i heq; cases heq
  · exact ⟨rfl, rfl⟩

/-- **C144 is false of every upload that is refused and fits into one piece** of the chunk size: when `parse()` is called
again it reports success, and `POST` and `FILES` are empty.  Whatever the body and the exception were (if there was one: the
parser may also never end), and for all handlers that leave the input alone. -/
theorem C144_piece_refuted {L : Lawful ρ} {E : Env ρ σ F} {S : Settings} {p : ρ} {m : Message}
    {host port type : Bytes} {ps : List (Bytes × Bytes)} {qs : List (UStr × UStr)}
    (h : Arrives L E.C S p m host port (some type) ps qs)
    (hty : b!"multipart/" <+: type) (hlo : Py.lower type = b!"multipart/form-data")
    {b cl : Bytes} {n : Nat} (hb : param ps b!"boundary" = some b) (hbo : BoundaryOk (Py.toU b))
    (hcl : m.header b!"Content-Length" = some cl) (hn : Numeral 10 DecDigit cl n) (h0 : n ≠ 0) (hne : m.body ≠ [])
    (hmem : Allowed S.dataMaxMemory 0) {w w1 : σ} {H : HandlerOps ρ σ F} (hl : E.load w = (.ok H, w1)) (hc : H.count ≠ 0)
    (hraw : ∀ a s, ∃ w', rawInputLoop H a (List.range H.count) s w1 = (.ok none, s, w'))
    (hsm : m.body.length ≤ chunkSizeOf H) (hl2 : ∀ w, ∃ H w', E.load w = (.ok H, w')) :
    ∃ r0 : Req ρ σ F, Req.new E.C S p = .ok r0 ∧
      ∀ e S1 r1 w1, parseRequest E S r0 w = (.error e, S1, r1, w1) →
        ∃ r2 w2, parseRequest E S1 r1 w1 = (.ok (), S1, r2, w2) ∧ r2.post = some (.query ⟨[], true⟩) ∧
          r2.files = some [] ∧ r2.bodyParsed = false := by
  have hS := charsetAfter_fields S ps
  generalize hS' : charsetAfter S ps = S' at *
  obtain ⟨r0, r, h1, h2, h3, h4, h5, h6, h7, h8, h9, h10⟩ := header_new (σ := σ) (F := F) h
  rw [hS'] at h2
  have hcodec := h.codec
  rw [hS'] at hcodec
  obtain ⟨s, a1, a2, a3⟩ := parseBodyStream_full (E := E) (S := S') (w := w1) (H := H)
    (r := { r with handlers := some H }) (k := 2) (by omega) h4 (by rw [h5]; exact hne)
  have a2 : L.sc s = m.body := a2.trans h5
  obtain ⟨hd, hi1, hi2⟩ := h3.info
  have hlast : ∀ k, k ≠ b!"Host" → (hd.get? k).bind List.getLast? = m.header k := by
    intro k hk
    rw [hi2, Message.header, ← Message.getLast_filter]
    by_cases hk2 : k ∈ m.headers.map Prod.fst
    · rw [if_neg (by rintro (⟨h, _⟩ | h); exacts [hk h, h hk2]), if_pos hk2]
    · rw [if_pos (.inr hk2), if_neg hk2]
  obtain ⟨htv, ct, hct, hmt⟩ := h.content
  obtain ⟨opts, o1, o2⟩ := parseHeader_media E.C (type := type)
    ⟨fun hm => (htv _ hm).2 (by decide), fun hm => (htv _ hm).2 (by decide), fun c hc => visible_ascii (htv c hc).1⟩ hmt
  have hct' := hlast b!"Content-Type" (by decide)
  have hcl' := hlast b!"Content-Length" (by decide)
  rw [hct] at hct'
  rw [hcl] at hcl'
  have hbp : Py.toU b ≠ [] := by
    obtain ⟨t, c, hh, _⟩ := hbo
    rcases hh with hh | hh <;> rw [hh] <;> simp
  have hcreate : MultiPart.create E.C H (some ct) (some cl) = .ok ⟨b, chunkSizeOf H, n⟩ := by
    rw [create_ok_iff]
    refine ⟨_, opts, .b b, ?_, ?_, o1, by rw [o2, hb]; rfl, hbp, (validBoundary_iff _).2 hbo, ?_, ?_⟩
    · have : ∀ {ps s}, MediaText type ps s → b!"multipart/" <+: s := by
        intro ps s hmt
        induction hmt with
        | nil => exact hty
        | snoc _ _ _ _ ih => rw [List.append_assoc]; exact ih.trans (List.prefix_append _ _)
      exact List.isPrefixOf_iff_prefix.2 (this hmt)
    · have hmem : (b!"Content-Type", ct) ∈ m.headers := lastValue_mem hct
      simp only [Option.getD_some, Py.isAscii, List.all_eq_true, decide_eq_true_eq]
      intro c hc
      rcases (h.ok.values _ hmem).1 c hc with hv | rfl | rfl
      · exact visible_ascii hv
      · decide
      · decide
    · simp [lengthOf, parseInt_digits hn]
    · simp [lengthOf, parseInt_digits hn, PyStr.points, toU_ofNat]
  have hq : emptyQueryDict E.C S' = .ok () := by
    unfold emptyQueryDict
    rw [hcodec.decode [] (by simp), if_neg]
    rw [hS.1]
    cases hmf : S.maxFields with
    | none => simp
    | some l =>
      have := h.limit.one l hmf
      simp
      omega
  have hchunk : 1 ≤ chunkSizeOf H := (C33_chunk_size _ _ _ _ _ hcreate).2.1
  have htext : unicodeBoundary E.C (some ct) = false := by
    unfold unicodeBoundary
    simp only [Option.getD_some, o1, o2, hb]
    rfl
  have hpr := parseRequest_body h2 h6 h7 hl
  rw [a3] at hpr
  have hqd := queryDict_none hcodec (by rw [hS.1]; exact h.limit.one) false
  refine ⟨r0, h1, fun e S1 r1 w2 hx => ?_⟩
  -- the stream after the parser
  obtain ⟨w3, hraw'⟩ := hraw { contentLength := n, boundary := b, settings := S' } s
  obtain ⟨g1, g2⟩ := parse_one_piece L E.C S' H E.fuel64 ⟨b, chunkSizeOf H, n⟩ hchunk h0 hq s w1 w3 hraw'
    (a1.toSOK (by omega)) (by rw [a2]; exact hne) (by rw [a2]; exact hsm)
  have hst := parseByType_upload (E := E) (S := S') (H := H) (r := { r with handlers := some H, stream := s }) (w := w1)
    (by simp only [h3.contentType, Option.map_some, hlo]) hc (h := hd) (by simp only [hi1, Option.bind_some]) (by rw [hct', hcl']; exact hcreate)
    (by rw [hct']; exact htext)
  have hfr := parseByType_frame E S' H { r with handlers := some H, stream := s } w1
  rw [hpr] at hx
  clear hpr a3
  generalize parseByType E S' H { r with handlers := some H, stream := s } w1 = z at hx hst hfr
  obtain ⟨o, r', w'⟩ := z
  simp only at hst hfr
  rw [← hst.1] at g1 g2
  have k1 : r'.headerParsed = true := hfr.headerParsed.trans h6
  have k2 : r'.bodyParsed = false := hfr.bodyParsed.trans h7
  cases o with
  | error e' =>
    simp only [Prod.mk.injEq, Except.error.injEq] at hx
    obtain ⟨rfl, rfl, rfl, rfl⟩ := hx
    obtain ⟨H2, w4, hl3⟩ := hl2 w'
    obtain ⟨s4, hs4⟩ := read_empty L 1 r'.stream g1 g2
    have hs4 : r'.stream.read (some 1) = (.ok [], s4) := hs4
    have hh : parseRequestHeader E S' r' = (.ok (), S', r') := by
      unfold parseRequestHeader
      rw [if_pos k1]
    refine ⟨{ r' with handlers := some H2, stream := s4, post_ := some (.query ⟨[], false⟩), files_ := some [] }, w4, ?_,
      hfr.post.trans h9, hfr.files.trans h10, k2⟩
    rw [parseRequest_body hh k1 k2 hl3]
    unfold parseBodyStream
    simp only [hs4, if_true, hqd]
  | ok u =>
    exfalso
    obtain ⟨s2, hr⟩ := readBody_empty L S' r' g1 g2 (by rw [hS.2.1]; exact hmem)
    have f1 := (finishBody_fresh (C := E.C) k2 (hst.2.trans h8) hr).1 [] (hcodec.decode [] (by simp))
    simp only [f1, Prod.mk.injEq] at hx
    exact absurd hx.1 (by simp)

omit [Producer ρ] in
/-- The handlers of the library ask for pieces of 64 KiB. -/
theorem chunkSizeOf_builtin (os : Os) (n : Nat) (h : n ≠ 0) : chunkSizeOf (builtinOps ρ os n) = 65536 := by
  have hm : ∀ l : List Nat, l.filterMap (fun i => ((builtinOps ρ os n).chunkSize i).filter (· ≠ 0)) =
      List.replicate l.length 65536 := by
    intro l
    induction l with
    | nil => rfl
    | cons i l ih =>
      show 65536 :: l.filterMap (fun i => ((builtinOps ρ os n).chunkSize i).filter (· ≠ 0)) = _
      rw [ih]; rfl
  have hf : ∀ k : Nat, (List.replicate k 65536).foldl min 65536 = 65536 := by
    intro k
    induction k with
    | zero => rfl
    | succ k ih => exact ih
  obtain ⟨k, rfl⟩ := Nat.exists_eq_succ_of_ne_zero h
  unfold chunkSizeOf
  rw [hm, List.length_range]
  exact hf k

/-- **C144 is false of every upload of up to 64 KiB that is refused**, with the upload handlers of the library: `parse()`
called again reports success, and `POST` and `FILES` are empty. -/
theorem C144_gone_refuted {L : Lawful ρ} {E : Env ρ BWorld Uploaded} {S : Settings} {p : ρ} {m : Message}
    {host port type : Bytes} {ps : List (Bytes × Bytes)} {qs : List (UStr × UStr)}
    (h : Arrives L E.C S p m host port (some type) ps qs)
    (hty : b!"multipart/" <+: type) (hlo : Py.lower type = b!"multipart/form-data")
    {b cl : Bytes} {n : Nat} (hb : param ps b!"boundary" = some b) (hbo : BoundaryOk (Py.toU b))
    (hcl : m.header b!"Content-Length" = some cl) (hn : Numeral 10 DecDigit cl n) (h0 : n ≠ 0) (hne : m.body ≠ [])
    (hmem : Allowed S.dataMaxMemory 0) {w : BWorld} {hs : List Builtin} (hhs : hs ≠ []) {os : Os}
    (hl : ∀ w : BWorld, E.load w = (.ok (builtinOps ρ os hs.length), ⟨hs, w.heap⟩)) (hsm : m.body.length ≤ 65536) :
    ∃ r0 : Req ρ BWorld Uploaded, Req.new E.C S p = .ok r0 ∧
      ∀ e S1 r1 w1, parseRequest E S r0 w = (.error e, S1, r1, w1) →
        ∃ r2 w2, parseRequest E S1 r1 w1 = (.ok (), S1, r2, w2) ∧ r2.post = some (.query ⟨[], true⟩) ∧
          r2.files = some [] ∧ r2.bodyParsed = false := by
  have hc : hs.length ≠ 0 := by simpa using hhs
  refine C144_piece_refuted h hty hlo hb hbo hcl hn h0 hne hmem (hl w) hc ?_ (by rw [chunkSizeOf_builtin os _ hc]; exact hsm)
    (fun w => ⟨_, _, hl w⟩)
  intro a s
  have := rawInputLoop_builtin os hs.length a s w.heap hs []
  rw [List.nil_append, List.length_nil, ← List.range_eq_range'] at this
  exact ⟨_, this⟩

end

/-- So with default settings and handlers: every form of up to 64 KiB that is refused is accepted as an empty one by parsing
again, however it arrives. -/
theorem C144_default_refuted {mods : Modules (Except Exc Builtin)} (hm : Installed mods) (up : List UStr) (fuel64 : Nat) (os : Os)
    (body : Bytes) (hne : body ≠ []) (hsm : body.length ≤ 65536) (cs : List Bytes)
    (h : cs.flatten = (formMessage body).text) (w : BWorld) :
    ∃ r0 : Req Source BWorld Uploaded, Req.new pyCodecs {} ⟨cs⟩ = .ok r0 ∧
      ∀ e S1 r1 w1, parseRequest (namedEnv Source pyCodecs up os mods defaultHandlers fuel64) {} r0 w = (.error e, S1, r1, w1) →
        ∃ r2 w2, parseRequest (namedEnv Source pyCodecs up os mods defaultHandlers fuel64) S1 r1 w1 = (.ok (), S1, r2, w2) ∧
          r2.post = some (.query ⟨[], true⟩) ∧ r2.files = some [] ∧ r2.bodyParsed = false :=
  C144_gone_refuted (E := namedEnv Source pyCodecs up os mods defaultHandlers fuel64) (formMessage_arrives py_latin1 _ cs h)
    (by decide) (by decide +kernel) (b := b!"B") rfl boundaryB rfl three_hundred (by decide) hne ⟨_, rfl, by decide⟩
    (os := os) (hs := [.conv {}]) (by simp) (fun w => by simp only [namedEnv, load_default hm]) hsm

/-- A file in base64 whose text is not base64. -/
def spoiltBody : Bytes :=
  b!"--B\r\nContent-Disposition: form-data; name=\"a\"; filename=\"n\"\r\nContent-Transfer-Encoding: base64\r\n\r\nA===\r\n--B--\r\n"

/-- It is refused with default settings and handlers, and then accepted. -/
example :
    ((Req.new (σ := BWorld) (F := Uploaded) pyCodecs {} (⟨[(formMessage spoiltBody).text]⟩ : Source)).toOption.map fun r =>
      let E := namedEnv Source pyCodecs [] goodOs sampleModules defaultHandlers 100
      let first := parseRequest E {} r ⟨[], []⟩
      let second := parseRequest E first.2.1 first.2.2.1 first.2.2.2
      ((match first.1 with | .error e => some e | .ok _ => none), second.1.toOption, second.2.2.1.files.map List.length)) =
    some (some .typeError, some (), some 0) := by decide +kernel

end Verif
