import Verif.Props.Settled
/-!
# Forms with files in base64 (C83)
-/

namespace Verif
open Spec

/-- What the parser makes of a part as a client writes it. -/
def SentHead (it : FormItem) (t : ItemType) (md : MetaData) (content : Bytes) : Prop :=
  ∃ d, partName md = some (d, .b it.name) ∧
    match it with
    | .field _ v => t = .field ∧ md.get? b!"content-type" = none ∧ transferEnc md = none ∧ content = v
    | .file _ fn _ c => t = .file ∧ d.get? b!"filename" = some (.b fn) ∧ FileData (transferEnc md) content c

theorem sent_head (C : Codecs) {boundary : Bytes} {it : FormItem} {text : Bytes} (h : it.Sent boundary text) :
    (∀ e, ¬ HeadErr C text e) ∧ ∀ t md content, PartHead C text t md content → SentHead it t md content := by
  cases h with
  | plain h =>
    obtain ⟨h1, h2⟩ := partHead_form C h
    refine ⟨h1, fun t md content hP => ?_⟩
    obtain ⟨⟨d, a1, a2, a3⟩, rfl⟩ := h2 t md content hP
    refine ⟨d, a1, ?_⟩
    cases it with
    | field n v => exact ⟨a3.1, a3.2, a2, rfl⟩
    | file n fn ct c => exact ⟨a3.1, a3.2, by unfold FileData; rw [a2]; simp [FormItem.data]⟩
  | @base64 n fn ct c tx hit hB hsep hshort htrim h13 h1 h2 h3 h4 h5 h6 h7 h8 =>
    subst hit
    have e0 : parsePartHeader C [] = .error .valueError := rfl
    obtain ⟨d, hd, hg⟩ := C16_quoted_round_trip C b!"Content-Disposition: form-data"
      [(b!"name", n), (b!"filename", fn)]
      (by decide) (by simp [paramName_name, paramName_filename]) h2
    have e1 : parsePartHeader C (b!"Content-Disposition: form-data" ++
        renderParams [(b!"name", n), (b!"filename", fn)]) =
        .ok (b!"content-disposition", b!" form-data", d) := by
      unfold parsePartHeader
      rw [hd]
      rfl
    have hfn : d.get? b!"filename" = some (.b fn) := by rw [hg]; rfl
    have hnm : d.get? b!"name" = some (.b n) := by rw [hg]; rfl
    obtain ⟨d2, hd2, _⟩ := C16_quoted_round_trip C (b!"Content-Type: " ++ ct) []
      (by
        refine ⟨?_, ?_, ?_⟩
        · simp; exact fun hx => (h8 _ hx).2.2.1 rfl
        · simp; exact fun hx => (h8 _ hx).2.2.2 rfl
        · intro x hx
          rcases List.mem_append.1 hx with hx | hx
          · clear * - hx; revert x; decide
          · exact (h8 x hx).1)
      (by simp) (by simp [Separable])
    obtain ⟨v, e2⟩ : ∃ v, parsePartHeader C (b!"Content-Type: " ++ ct) = .ok (b!"content-type", v, d2) := by
      unfold parsePartHeader
      rw [show b!"Content-Type: " ++ ct = b!"Content-Type: " ++ ct ++ renderParams [] by simp [renderParams], hd2]
      have : Py.strip (b!"Content-Type: " ++ ct) = b!"Content-Type" ++ 58 ::
          ((32 :: ct).reverse.dropWhile Py.isSpace).reverse := by
        have := strip_mid (p := Py.isSpace) (c := 58) (by decide) b!"Content-Type" (32 :: ct)
        exact this
      rw [this]
      simp only [Py.lower, List.map_append, List.map_cons]
      generalize List.map Py.lowerByte ((32 :: ct).reverse.dropWhile Py.isSpace).reverse = v at *
      exact ⟨v, rfl⟩
    have e3 : parsePartHeader C b!"Content-Transfer-Encoding: base64" =
        .ok (b!"content-transfer-encoding", b!" base64", []) := rfl
    let md0 : MetaData := [(b!"content-disposition", b!" form-data", d), (b!"content-type", v, d2),
      (b!"content-transfer-encoding", b!" base64", [])]
    let ls := (FormItem.file n fn ct c).lines ++ [b!"Content-Transfer-Encoding: base64"]
    have hp : partHeaders C ([] :: ls) .raw [] = .ok (.file, md0) := by
      have hl : [] :: ls = [[], b!"Content-Disposition: form-data" ++ renderParams [(b!"name", n), (b!"filename", fn)],
        b!"Content-Type: " ++ ct, b!"Content-Transfer-Encoding: base64"] := rfl
      rw [hl]
      simp only [md0, partHeaders, e0, e1, e2, e3, Exc.isValueError, if_true, hfn]
      simp [PyStr.truthy, h4, Dict.set]
    have hls : ∀ l ∈ ls, l ≠ [] ∧ 13 ∉ l := by
      intro l hl
      have hf : 13 ∉ fn := fun hx => (h7 13 hx).1 rfl
      have hc : 13 ∉ ct := fun hx => (h8 13 hx).2.1 rfl
      simp only [ls, FormItem.lines, List.cons_append, List.nil_append, List.mem_cons, List.not_mem_nil, or_false] at hl
      rcases hl with rfl | rfl | rfl
      · simp [renderParams, escape_no13 n h13, escape_no13 fn hf]
      · simp [hc]
      · decide
    have hhead : (FormItem.file n fn ct c).head64 = ls.flatMap (fun l => b!"\r\n" ++ l) := by
      simp [FormItem.head64, FormItem.head, ls]
    generalize hH : (FormItem.file n fn ct c).head64 = head at *
    have hf : Py.find b!"\r\n\r\n" ((head ++ b!"\r\n\r\n" ++ tx).take 1024) = some head.length := by
      rw [List.take_append, List.take_of_length_le (by simp; omega), hhead]
      exact find_head _ _ hls
    have htk : (head ++ b!"\r\n\r\n" ++ tx).take head.length = head := by simp
    have hsp : Py.splitPair 13 10 ((head ++ b!"\r\n\r\n" ++ tx).take head.length) = [] :: ls := by
      rw [htk, hhead]; exact splitPair_head _ (fun l hl => (hls l hl).2)
    constructor
    · rintro e ⟨i, k1, k2⟩
      rw [hf, Option.some.injEq] at k1
      rw [← k1, hsp, hp] at k2
      simp at k2
    · intro t md content hP
      obtain ⟨rfl, rfl, rfl⟩ := hP.inv hf (by rw [hsp]; exact hp) (by simp)
      refine ⟨d, ?_, rfl, hfn, ?_⟩
      · simp [md0, partName, Dict.get?, hnm, FormItem.name]
      · have hte : transferEnc md0 = some b!"base64" := rfl
        unfold FileData
        rw [hte, if_pos rfl, show head.length + 4 = (head ++ b!"\r\n\r\n").length by simp]
        simpa only [List.drop_left] using hB

theorem Spec.FormItem.Sent.noSep {boundary : Bytes} {it : FormItem} {text : Bytes} (h : it.Sent boundary text) :
    ¬ (b!"--" ++ boundary) <:+: text := by
  cases h with
  | plain h => exact h.noSep
  | base64 _ _ h => exact h

section
variable {ρ σ F : Type} {H : HandlerOps ρ σ F} {Ready : σ → List (Bytes × F × Bytes) → Prop}
  {Busy : σ → List Nat → List (Bytes × F × Bytes) → Bytes → Bytes → Prop}

/-- The parts after the first separator. -/
theorem Parses.sent (C : Codecs) (S : Settings) (fuel64 : Nat)
    (hcs : ∀ n, (∀ c ∈ n, c < 128) → C.strEncode S.defaultCharset n = .ok n)
    {boundary tail : Bytes} (h13 : 13 ∉ boundary) (ht : tail ≠ []) (ht1 : ¬ (b!"--" ++ boundary) <:+: tail)
    (ht2 : ¬ b!"\r\n\r\n" <:+: tail) {r D' st'} :
    ∀ (todo : List (FormItem × Bytes)) (past : List FormItem) (st : PState σ F),
      (filesOf (past ++ todo.map Prod.fst) ≠ [] → Stores H Ready Busy) →
      (∀ p ∈ todo, p.1.Sent boundary p.2) → InLimits S (past ++ todo.map Prod.fst) →
      (Idle Ready st past ∨ Pending Busy st past) →
      (todo.flatMap (fun p => p.2 ++ b!"\r\n" ++ (b!"--" ++ boundary)) ++ tail).length ≤ fuel64 →
      Parses C S H fuel64 (b!"--" ++ boundary)
        (todo.flatMap (fun p => p.2 ++ b!"\r\n" ++ (b!"--" ++ boundary)) ++ tail) st r D' st' →
      r = .ok () ∧ Idle Ready st' (past ++ todo.map Prod.fst) := by
  intro todo
  induction todo with
  | nil =>
    intro past st hs _ _ h _ hp
    simp only [List.flatMap_nil, List.nil_append, List.append_nil, List.map_nil] at hp hs ⊢
    exact Parses.epilogue C S fuel64 hs tail.length tail st (le_refl _) ht1 ht2 (.inr ⟨ht, h⟩) hp
  | cons p todo ih =>
    obtain ⟨it, text⟩ := p
    intro past st hs hok hlim h hfuel hp
    have hit : it.Sent boundary text := hok (it, text) (by simp)
    rw [List.map_cons] at hs hlim ⊢
    rw [List.flatMap_cons, List.append_assoc] at hp hfuel
    generalize hrest : List.flatMap (fun p : FormItem × Bytes => p.2 ++ b!"\r\n" ++ (b!"--" ++ boundary)) todo ++ tail =
      rest at hp hfuel
    obtain ⟨c1, c2⟩ := cut_form (rest := rest) h13 hit.noSep
    obtain ⟨p1, p2⟩ := sent_head C hit
    obtain ⟨t, md, content, b, r1, D1, st1, e1, e2, e3, e4⟩ := hp.step_inv (by simp) (by rw [c1]; exact p1)
    rw [c1] at e1
    obtain ⟨d, q1, q3⟩ := p2 _ _ _ e1
    have hcl : t ≠ .raw → content.length ≤ fuel64 := by
      intro hr
      have := e1.length hr
      simp only [List.length_append] at hfuel
      omega
    obtain ⟨st2, f1, f2⟩ := completeOld_form (fun hne => hs (by
      simp only [filesOf, List.filterMap_append, ne_eq, List.append_eq_nil_iff, not_and_or] at hne ⊢
      exact .inl hne)) h
    have htrim : Py.strip it.name = it.name := by
      cases hit with
      | plain h => exact h.trimmed
      | base64 hi _ _ _ h => subst hi; exact h
    have hname : forceText (PyStr.b it.name).strip = .ok it.name := by
      simp [PyStr.strip, forceText, htrim]
    have hlim2 : InLimits S (past ++ [it]) := by
      refine InLimits.prefix (b := todo.map Prod.fst) ?_
      rwa [List.append_assoc, List.singleton_append]
    have key : r1 = .ok () ∧ b = true ∧ (Idle Ready st1 (past ++ [it]) ∨ Pending Busy st1 (past ++ [it])) := by
      cases it with
      | field n v =>
        obtain ⟨rfl, q4, q2, rfl⟩ := q3
        have hk : ∀ c ∈ n, c < 128 := by
          cases hit with
          | plain h => exact h.kind.1
          | base64 hi => simp at hi
        have hfo : fieldsOf (past ++ [.field n content]) = fieldsOf past ++ [(n, content)] := by
          simp [fieldsOf, List.filterMap_append]
        have hsz : formSize (past ++ [.field n content]) = formSize past + (content.length + n.length + 2) := by
          simp [formSize, hfo]
        obtain ⟨raw, g1, g2, g3⟩ := e2.field_inv f1 q1 hname rfl (by
          cases hm : S.maxFields with
          | none => rfl
          | some k =>
            have := hlim2.count k hm
            rw [hfo] at this
            simp only [List.length_append, List.length_cons, List.length_nil] at this
            simp only [Option.any_some, decide_eq_false_iff_not, not_lt, f2.fields.keys]
            omega) (by
          cases hm : S.dataMaxMemory with
          | none => rfl
          | some k =>
            have := hlim2.memory k hm
            rw [hsz] at this
            simp only [Option.any_some, decide_eq_false_iff_not, not_lt, f2.fields.bytes]
            omega)
        have hraw : raw = content := by
          rw [g1]
          cases hm : S.dataMaxMemory with
          | none => rfl
          | some k =>
            have := hlim2.memory k hm
            rw [hsz] at this
            apply List.take_of_length_le
            rw [f2.fields.bytes]
            omega
        have hnl : ∀ k, S.dataMaxMemory = some k → ((st2.numBytes + content.length + (n.length + 2) : Nat) : Int) ≤ k := by
          intro k hm
          have := hlim2.memory k hm
          rw [hsz] at this
          rw [f2.fields.bytes]
          omega
        rw [hraw, q2, FormItem.name, storeField_plain (st := { st2 with numKeys := st2.numKeys + 1 }) hnl
          (hcs n hk)] at g2
        simp only [q4, Option.getD_none] at g2
        simp only [Prod.mk.injEq] at g2
        obtain ⟨rfl, rfl⟩ := g2
        refine ⟨rfl, (g3 rfl).2, .inl ⟨⟨?_, ?_, ?_⟩, f2.old, ?_⟩⟩
        · simp only [hfo, List.foldl_append, List.foldl_cons, List.foldl_nil, f2.fields.post]
          rfl
        · simp [hfo, f2.fields.keys]
        · simp only [hsz, f2.fields.bytes]; omega
        · have : filesOf (past ++ [.field n content]) = filesOf past := by
            simp [filesOf, List.filterMap_append]
          rw [this]; exact f2.files
      | file n fn ct c =>
        obtain ⟨rfl, q4, q5⟩ := q3
        obtain ⟨k1, k3, k4, k5, k7⟩ : n ≠ [] ∧ c ≠ [] ∧ fn ≠ [] ∧ Py.strip fn = fn ∧
            (∀ x ∈ fn, x ≠ 13 ∧ x ≠ 38 ∧ x ≠ 47 ∧ x ≠ 92) := by
          cases hit with
          | plain h => exact ⟨h.kind.1, h.kind.2.2.1, h.kind.2.2.2.1, h.kind.2.2.2.2.1, h.kind.2.2.2.2.2.2.1⟩
          | base64 hi _ _ _ _ _ j1 _ j3 j4 j5 _ j7 =>
            cases hi
            exact ⟨j1, j3, j4, j5, j7⟩
        have hfn : dispositionFileName d = .ok fn := by
          simp only [dispositionFileName, q4, PyStr.truthy, ne_eq, k4, not_false_eq_true, decide_true, if_true]
          exact fileNameOf_plain k7 k5
        obtain ⟨r0, cs, w, g1, g2⟩ := e2.file_inv f1 q1 hname rfl hfn k4
        obtain ⟨m, m1, m2, m3⟩ := f2.files
        obtain ⟨rfl, hB⟩ := RecvRun.stores64 (hs (by simp [filesOf, List.filterMap_append])) g1
          (by simpa [fileArgs] using q5) (hcl (by simp)) trivial m3
        rcases g2 with ⟨_, rfl, rfl, rfl⟩ | ⟨h, _⟩ | ⟨e, h, _⟩
        · have hfo : fieldsOf (past ++ [.file n fn ct c]) = fieldsOf past := by
            simp [fieldsOf, List.filterMap_append]
          have hfi : filesOf (past ++ [.file n fn ct c]) = filesOf past ++ [(n, fn, c)] := by
            simp [filesOf, List.filterMap_append]
          refine ⟨rfl, rfl, .inr ⟨⟨?_, ?_, ?_⟩, m, n, fn, c, ?_, k1, k3, rfl, m2, hB⟩⟩
          · rw [hfo]; exact f2.fields.post
          · rw [hfo]; exact f2.fields.keys
          · unfold formSize; rw [hfo]; exact f2.fields.bytes
          · rw [hfi, m1]
        · simp at h
        · simp at h
    obtain ⟨rfl, rfl, hst⟩ := key
    rcases e4 with ⟨e, he, _⟩ | ⟨_, _, g2, g3⟩
    · simp at he
    · rw [c2] at g2
      rw [g2 (.inl rfl), ← hrest] at g3
      have := ih (past ++ [it]) st1 (by rwa [List.append_assoc, List.singleton_append]) (fun it' h => hok it' (by simp [h])) (by
        rw [List.append_assoc, List.singleton_append]; exact hlim) hst (by
          rw [hrest]; simp only [List.length_append] at hfuel; omega) g3
      rwa [List.append_assoc, List.singleton_append] at this

end

theorem foldl_congr' {α β : Type} {f g : β → α → β} {l : List α} {b : β}
    (h : ∀ b, ∀ a ∈ l, f b a = g b a) : l.foldl f b = l.foldl g b := by
  induction l generalizing b with
  | nil => rfl
  | cons a l ih =>
    rw [List.foldl_cons, List.foldl_cons, h b a (by simp), ih (fun b x hx => h b x (by simp [hx]))]

/-- The body of a form whose items are written as `ps` says. -/
def Spec.renderSent (boundary : Bytes) (ps : List (FormItem × Bytes)) (epilogue : Bytes) : Bytes :=
  b!"--" ++ boundary ++ (ps.flatMap (fun p => p.2 ++ b!"\r\n" ++ (b!"--" ++ boundary)) ++ (b!"--" ++ epilogue))

/-- **C83.** Files sent in base64 come back decoded: the visible result is that of the form (as in C18
and C19), byte for byte, whichever files are sent in base64, with white space anywhere in the encoded
text, whatever the chunk size and the pieces in which the body arrives, and whatever built-in handlers
take the files. -/
theorem C83_base64 {ρ : Type} [Producer ρ] {L : Lawful ρ} (C : Codecs) (S : Settings) (os : Os)
    (hos : ∀ e, os.tempFile e = .ok ()) (fuel64 : Nat) (m : MultiPart) (hc : 1 ≤ m.chunkSize)
    (hl : m.contentLength ≠ 0) (h13 : 13 ∉ m.boundary) {epi : Bytes}
    (he1 : ¬ (b!"--" ++ m.boundary) <:+: b!"--" ++ epi) (he2 : ¬ b!"\r\n\r\n" <:+: b!"--" ++ epi)
    (hq : emptyQueryDict C S = .ok ())
    (hcs : ∀ n, (∀ c ∈ n, c < 128) → C.strEncode S.defaultCharset n = .ok n)
    (ps : List (FormItem × Bytes)) (hok : ∀ p ∈ ps, p.1.Sent m.boundary p.2) (hlim : InLimits S (ps.map Prod.fst))
    (hs : List Builtin) (heap : Heap) (ht : Takes S m.contentLength hs)
    (input : LazyStream ρ) (hi : SOK L input) (hin : L.sc input = renderSent m.boundary ps epi)
    (hf : (renderSent m.boundary ps epi).length ≤ fuel64) :
    viewOf (m.parse C S (builtinOps ρ os hs.length) fuel64 input ⟨hs, heap⟩).1
        (m.parse C S (builtinOps ρ os hs.length) fuel64 input ⟨hs, heap⟩).2.2.heap =
      .ok (formView (ps.map Prod.fst)) := by
  have hraw := rawInputLoop_builtin (ρ := ρ) os hs.length ⟨m.contentLength, m.boundary, S⟩ input heap hs []
  simp only [List.length_nil, List.nil_append, ← List.range_eq_range'] at hraw
  rcases parse_spec C S (builtinOps ρ os hs.length) fuel64 m hc hl input input _ _ hraw hi with
    ⟨e, h1, _⟩ | ⟨_, r, D', st', s', R, w', h1, h2, h3, h4⟩
  · rw [hq] at h1; simp at h1
  · rw [hin] at h2
    have hst := builtin_stores (ρ := ρ) hos hs.length
    have key : r = .ok () ∧ Idle (BReady hs.length) st' (ps.map Prod.fst) := by
      unfold Spec.renderSent at h2 hf
      generalize hrest : List.flatMap (fun p : FormItem × Bytes => p.2 ++ b!"\r\n" ++ (b!"--" ++ m.boundary)) ps ++
        (b!"--" ++ epi) = rest at h2 hf
      obtain ⟨c1, c2⟩ := cut_first (sep := b!"--" ++ m.boundary) (rest := rest)
      have hnone : Py.find b!"\r\n\r\n" (([] : Bytes).take 1024) = none := by decide
      obtain ⟨t, md, content, b, r1, D1, st1, e1, e2, e3, e4⟩ := h2.step_inv (by simp) (by
        rw [c1]; rintro e ⟨i, hi, _⟩; rw [hnone] at hi; simp at hi)
      rw [c1] at e1
      obtain ⟨rfl, rfl, rfl⟩ := e1.inv_none hnone
      obtain ⟨rfl, rfl, rfl⟩ := e2.skip_inv (st1 := PState.start (builtinOps ρ os hs.length) _) rfl rfl
      rcases e4 with ⟨e, he, _⟩ | ⟨_, _, g2, g3⟩
      · simp at he
      · rw [c1, c2] at g2
        rw [g2 (.inr (by simp)), ← hrest] at g3
        exact Parses.sent C S fuel64 hcs h13 (by simp) he1 he2 ps [] _ (fun _ => hst) hok hlim
          (.inl ⟨⟨rfl, rfl, rfl⟩, rfl, [], rfl, rfl, ht.ready _ _⟩) (by
            rw [hrest]; simp only [List.length_append] at hf; omega) g3
    obtain ⟨rfl, hI⟩ := key
    obtain ⟨made, f1, f2, f3⟩ := hI.files
    obtain ⟨w2, u1, u2⟩ := hst.finishes _ _ f3
    rw [h1]
    simp only [endParse, u1, Prod.mk.injEq] at h3
    obtain ⟨rfl, rfl⟩ := h3
    simp only [viewOf, Except.map, Except.ok.injEq, formView, Prod.mk.injEq]
    refine ⟨hI.fields.post, ?_⟩
    rw [f2, Made.view made u2.2, f1]
    refine foldl_congr' (fun d p hp => ?_)
    obtain ⟨it, hit, hit2⟩ := List.mem_filterMap.1 hp
    obtain ⟨q, hq1, rfl⟩ := List.mem_map.1 hit
    cases hit : q.1 with
    | field => rw [hit] at hit2; simp at hit2
    | file n fn ct c =>
      rw [hit] at hit2
      simp only [Option.some.injEq] at hit2
      obtain ⟨k6, k7⟩ : fn.length ≤ 255 ∧ ∀ x ∈ fn, x ≠ 13 ∧ x ≠ 38 ∧ x ≠ 47 ∧ x ≠ 92 := by
        have := hok q hq1
        rw [hit] at this
        generalize q.2 = tx at this
        cases this with
        | plain h => exact ⟨h.kind.2.2.2.2.2.1, h.kind.2.2.2.2.2.2.1⟩
        | base64 hi _ _ _ _ _ j1 _ j3 j4 j5 j6 j7 => cases hi; exact ⟨j6, j7⟩
      rw [← hit2, setName_id (fun h => (k7 47 h).2.2.1 rfl) k6]

/-- A field and two files, the first of which is sent in base64 over two lines. -/
def sampleSent : List (FormItem × Bytes) :=
  [(.field b!"a" b!"1", FormItem.text (.field b!"a" b!"1")),
   (.file b!"up" b!"n.txt" b!"text/plain" b!"Hello!!",
     FormItem.head64 (.file b!"up" b!"n.txt" b!"text/plain" b!"Hello!!") ++ b!"\r\n\r\n" ++ b!"SGVs\r\nbG8h IQ=\n="),
   (.file b!"up" b!"m" b!"text/plain" b!"x", FormItem.text (.file b!"up" b!"m" b!"text/plain" b!"x"))]

theorem sampleSent_ok : ∀ p ∈ sampleSent, p.1.Sent b!"B" p.2 := by
  intro p hp
  simp only [sampleSent, List.mem_cons, List.not_mem_nil, or_false] at hp
  rcases hp with rfl | rfl | rfl
  · exact .plain ⟨by decide +kernel, by decide +kernel, by decide +kernel, by decide +kernel,
      by decide +kernel, separable_of_no_semicolon (by decide +kernel) (by decide +kernel)⟩
  · exact .base64 rfl (.three 72 101 108 (.three 108 111 33 (.one 33))) (by decide +kernel) (by decide +kernel)
      (by decide +kernel) (by decide +kernel) (by decide +kernel)
      (separable_of_no_semicolon (by decide +kernel) (by decide +kernel)) (by decide +kernel)
      (by decide +kernel) (by decide +kernel) (by decide +kernel) (by decide +kernel) (by decide +kernel)
  · exact .plain ⟨by decide +kernel, by decide +kernel, by decide +kernel, by decide +kernel,
      by decide +kernel, separable_of_no_semicolon (by decide +kernel) (by decide +kernel), by decide +kernel,
      by decide +kernel, by decide +kernel, by decide +kernel, by decide +kernel, by decide +kernel⟩

/-- The hypotheses of C83 can be met for every chunk size and cutting of the body. -/
example (k : Nat) (hk : 1 ≤ k) (cs : List Bytes) (h : cs.flatten = renderSent b!"B" sampleSent b!"\r\n") :=
  C83_base64 (L := Source.lawful) latinCodecs {} goodOs (fun _ => rfl) 1000 ⟨b!"B", k, 1000⟩ hk (by simp) (by simp)
    (epi := b!"\r\n") (by show ¬ (b!"--" ++ b!"B") <:+: _; decide +kernel) (by decide +kernel) rfl (fun n hn => by
      have : Py.isAscii n = true := by simpa [Py.isAscii] using hn
      simp [latinCodecs, this]) sampleSent sampleSent_ok
    ⟨by intro n h; simp at h; subst h; decide, by intro n h; simp at h; subst h; decide⟩
    [.memory {}, .conv {}] [] ⟨⟨.conv {}, by simp, trivial⟩, by intro h hh _; decide⟩
    (LazyStream.mk' ⟨cs⟩) (SOK.fresh cs) (by rw [sc_fresh]; exact h)
    (by show (renderSent b!"B" _ _).length ≤ _; decide +kernel)

example : formView (sampleSent.map Prod.fst) = ([(b!"a", [plainItem b!"1"])],
    [(b!"up", [(b!"n.txt", 7, some b!"Hello!!"), (b!"m", 1, some b!"x")])]) := by rfl

end Verif
