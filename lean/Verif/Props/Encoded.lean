import Verif.Props.Hang
import Verif.Props.Meant
import Verif.Props.EmptyRequest
/-!
# The limit on the memory for fields, for all written forms (C107)
-/

namespace Verif
open Spec

namespace Spec

/-- What the fields of a form take: each its text as it was sent, its name and 2 bytes. -/
def saidSize (l : List Said) : Nat := ((saidFields l).map (fun p => p.2.1 + p.1.length + 2)).sum

/-- What they take once they are decoded. -/
def plainSize (l : List Said) : Nat := ((saidFields l).map (fun p => p.2.2.data.length + p.1.length + 2)).sum

/-- How a field ends that does not fit, of which `t` could be read. -/
def overError (te : Option Bytes) (t : Bytes) : Exc :=
  if te = some b!"base64" ∧ Py.b64decode t = none then .typeError else .requestDataTooBig

/-- Reading `D` after `g` one comes, after parts that have a meaning, to a field that goes beyond the limit `k`. -/
inductive ComesOver (C : Codecs) (S : Settings) (sep : Bytes) (k : Int) (e : Exc) : Bytes → Ghost → Prop where
  | here {D g md content d n name} : D ≠ [] → PartHead C (cut sep D) .field md content → partName md = some (d, n) →
      forceText n.strip = .ok name → (∀ k, S.maxFields = some k → ((g.keys + 1 : Nat) : Int) ≤ k) → (g.bytes : Int) ≤ k →
      k < ((g.bytes + content.length + (name.length + 2) : Nat) : Int) →
      overError (transferEnc md) (content.take (k - g.bytes).toNat) = e → ComesOver C S sep k e D g
  | later {D g g' t md content} : D ≠ [] → PartHead C (cut sep D) t md content →
      PartReads C S t md content ((cut sep D).length < 1024) g.close (.ok g') →
      ComesOver C S sep k e (after sep D) g' → ComesOver C S sep k e D g

end Spec

section
variable {ρ σ F : Type} {H : HandlerOps ρ σ F} {Ready : σ → List (Bytes × F × Bytes) → Prop}
  {Busy : σ → List Nat → List (Bytes × F × Bytes) → Bytes → Bytes → Prop}

theorem Parses.comesOver {C : Codecs} {S : Settings} {sep D : Bytes} {g : Ghost} {k : Int} {e : Exc}
    (hk : S.dataMaxMemory = some k) (hD : ComesOver C S sep k e D g) (hs : Stores H Ready Busy) {fuel64 : Nat}
    {st st' : PState σ F} {r : Except Exc Unit} {D' : Bytes} (hf : D.length ≤ fuel64) (ha : Abs Ready Busy st g)
    (hp : Parses C S H fuel64 sep D st r D' st') : r = .error e := by
  induction hD generalizing st with
  | @here D g md content d n name h1 h2 h3 h4 h5 h6 h7 h8 =>
    obtain ⟨t', md', content', b, r1, D1, st1, e1, e2, _, e4⟩ := hp.step_inv h1 h2.no_err
    obtain ⟨rfl, rfl, rfl⟩ := h2.unique e1
    obtain ⟨st2, c1, c2⟩ := ha.complete hs
    have b1 : st2.numBytes = g.bytes := c2.bytes
    have b2 : st2.numKeys = g.keys := c2.keys
    obtain ⟨raw, k1, k2, k3⟩ := e2.field_inv c1 h3 h4 rfl (by rw [b2]; exact any_false h5)
      (by rw [b1]; exact any_false (fun k' hk' => by rw [hk] at hk'; cases hk'; exact h6))
    rw [hk, b1] at k1
    simp only at k1
    subst k1
    have hover : k < ((g.bytes + (content.take (k - g.bytes).toNat).length + (name.length + 2) : Nat) : Int) := by
      rw [List.length_take]
      omega
    have hr1 : r1 = .error e := by
      rw [← h8]
      unfold storeField at k2
      unfold overError
      by_cases hb : transferEnc md = some b!"base64"
      · rw [if_pos hb] at k2
        cases hd : Py.b64decode (content.take (k - g.bytes).toNat) with
        | none =>
          rw [hd] at k2
          simp only [Prod.mk.injEq] at k2
          rw [if_pos ⟨hb, rfl⟩]
          exact k2.1.symm
        | some data =>
          rw [hd] at k2
          simp only [hk, b1, Option.any_some] at k2
          rw [if_pos (by simpa using hover)] at k2
          simp only [Prod.mk.injEq] at k2
          rw [if_neg (by simp)]
          exact k2.1.symm
      · rw [if_neg hb] at k2
        simp only [hk, b1, Option.any_some] at k2
        rw [if_pos (by simpa using hover)] at k2
        simp only [Prod.mk.injEq] at k2
        rw [if_neg (fun h => hb h.1)]
        exact k2.1.symm
    rcases e4 with ⟨e', he, he2, _⟩ | ⟨he, _⟩
    · rw [he2, ← he, hr1]
    · rw [hr1] at he; simp at he
  | @later D g g1 t md content h1 h2 h3 _ ih =>
    have hcl : (cut sep D).length ≤ D.length := (cut_prefix sep D).length_le
    have hal : (after sep D).length ≤ D.length := by
      unfold after; split <;> simp
    obtain ⟨t', md', content', b, r1, D1, st1, e1, e2, e3, e4⟩ := hp.step_inv h1 h2.no_err
    obtain ⟨rfl, rfl, rfl⟩ := h2.unique e1
    obtain ⟨rfl, j2, j3⟩ := PartRun.reads h3 hs (fun _ _ _ _ _ _ _ _ _ => trivial)
      (fun ht => by have := h2.length ht; omega) ha e2
    rcases e4 with ⟨e, he, he2, _⟩ | ⟨_, _, q2, q3⟩
    · simp at he
    · rw [q2 j2] at q3
      exact ih (by omega) j3 q3

end

/-- A written field that goes beyond the limit, after written parts that do not. -/
theorem comes_over {C : Codecs} {S : Settings} (hcs : ∀ n, (∀ c ∈ n, c < 128) → C.strEncode S.defaultCharset n = .ok n)
    {boundary : Bytes} (h13 : 13 ∉ boundary) {k : Int} {rest : Bytes} : ∀ (todo : List Sent) (past : List Said) (g : Ghost),
      (∀ p ∈ todo, p.Ok C boundary) → HoldsSaid g past → (∀ n, S.dataMaxMemory = some n → n = k) →
      (∀ n, S.maxFields = some n → ((saidFields (past ++ todo.map Sent.said)).length : Int) ≤ n) →
      ((saidSize past : Nat) : Int) ≤ k → k < ((saidSize (past ++ todo.map Sent.said) : Nat) : Int) →
      ∃ p ∈ todo, ∃ t, ComesOver C S (b!"--" ++ boundary) k (overError (encodingOf p.fields) t)
        (todo.flatMap (fun p => p.text ++ b!"\r\n" ++ (b!"--" ++ boundary)) ++ rest) g := by
  intro todo
  induction todo with
  | nil => intro past g _ _ _ _ h1 h2; simp at h2; omega
  | cons p todo ih =>
    intro past g hok hg hmem hcnt hle hlt
    obtain ⟨h1, h2⟩ := hok p (by simp)
    rw [List.flatMap_cons, List.append_assoc]
    generalize hr : todo.flatMap (fun p => p.text ++ b!"\r\n" ++ (b!"--" ++ boundary)) ++ rest = rest' at *
    obtain ⟨c1, c2⟩ := cut_form (rest := rest') h13 h1.noSep
    have hcnt1 : ∀ n, S.maxFields = some n → ((saidFields (past ++ [p.said])).length : Int) ≤ n := by
      intro n hn
      have := hcnt n hn
      have e : saidFields (past ++ (p :: todo).map Sent.said) =
          saidFields (past ++ [p.said]) ++ saidFields (todo.map Sent.said) := by
        rw [show past ++ (p :: todo).map Sent.said = (past ++ [p.said]) ++ todo.map Sent.said by simp]
        exact List.filterMap_append
      rw [e, List.length_append] at this
      omega
    by_cases hfit : ((saidSize (past ++ [p.said]) : Nat) : Int) ≤ k
    · obtain ⟨t, md, g', e1, e2, e3⟩ := partReads_ext hcs h1 h2 hg (S := S)
        ⟨hcnt1, fun n hn => by rw [hmem n hn]; exact hfit⟩ (p.text.length < 1024)
      obtain ⟨q, hq, t, ht⟩ := ih (past ++ [p.said]) g' (fun q hq => hok q (by simp [hq])) e3 hmem
        (by simpa using hcnt) hfit (by simpa using hlt)
      refine ⟨q, by simp [hq], t, .later (by simp) (by rw [c1]; exact e1) (by rw [c1]; exact e2) ?_⟩
      rw [c2]
      exact ht
    · generalize hx : p.said = x at h2
      cases h2 with
      | @field cd q name v f1 f2 f3 f4 f5 f6 =>
        obtain ⟨md, e1, e2⟩ := partHead_ext C h1 f1
        obtain ⟨t1, t2, t3⟩ := typeOf_md h1.visible e2
        rw [extKind_field f5] at e1
        have hs : saidSize (past ++ [p.said]) = saidSize past + (p.content.length + name.length + 2) := by
          rw [hx]; simp [saidSize, saidFields, List.filterMap_append]
        have hcnt2 : ∀ n, S.maxFields = some n → ((g.keys + 1 : Nat) : Int) ≤ n := by
          intro n hn
          have := hcnt1 n hn
          rw [hx] at this
          simp only [saidFields, List.filterMap_append, List.length_append] at this
          have e := hg.keys
          unfold saidFields at e
          rw [e]
          simpa using this
        have hb : g.bytes = saidSize past := hg.bytes
        refine ⟨p, by simp, _, .here (by simp) (by rw [c1]; exact e1) (partName_ext e2 f1 f2) f3.text_ok hcnt2
          (by rw [hb]; exact hle) (by rw [hb]; omega) (by rw [t3])⟩
      | @file cd q r name fn data f1 f2 f3 f4 f5 f6 f7 f8 =>
        have hs : saidSize (past ++ [p.said]) = saidSize past := by
          rw [hx]; simp [saidSize, saidFields, List.filterMap_append]
        omega

/-- … in a whole body. -/
theorem body_over {C : Codecs} {S : Settings} (hcs : ∀ n, (∀ c ∈ n, c < 128) → C.strEncode S.defaultCharset n = .ok n)
    {boundary : Bytes} (h13 : 13 ∉ boundary) {pre : Option Bytes}
    (hpre : ∀ p, pre = some p → ¬ (b!"--" ++ boundary) <:+: p ∧ ¬ b!"\r\n\r\n" <:+: p ∧ p.length < 1024)
    {rest : Bytes} {k : Int} (hk : S.dataMaxMemory = some k) (h0 : 0 ≤ k) (ps : List Sent) (hok : ∀ p ∈ ps, p.Ok C boundary)
    (hcnt : ∀ n, S.maxFields = some n → ((saidFields (ps.map Sent.said)).length : Int) ≤ n)
    (hlt : k < ((saidSize (ps.map Sent.said) : Nat) : Int)) :
    ∃ p ∈ ps, ∃ t, ComesOver C S (b!"--" ++ boundary) k (overError (encodingOf p.fields) t)
      (sentBody boundary pre ps rest) ⟨[], [], none, 0, 0⟩ := by
  obtain ⟨p, hp, t, hr⟩ := comes_over hcs h13 (rest := rest) ps [] ⟨[], [], none, 0, 0⟩ hok ⟨rfl, rfl, rfl, rfl⟩
    (fun n hn => by rw [hk] at hn; cases hn; rfl) hcnt (by simpa [saidSize, saidFields] using h0) hlt
  refine ⟨p, hp, t, ?_⟩
  unfold sentBody
  generalize ps.flatMap (fun p => p.text ++ b!"\r\n" ++ (b!"--" ++ boundary)) ++ rest = rest' at *
  obtain ⟨P, hP1, hP2, hP3, hP4⟩ : ∃ P : Bytes,
      cut (b!"--" ++ boundary) (pre.elim [] (· ++ b!"\r\n") ++ (b!"--" ++ boundary ++ rest')) = P ∧
      after (b!"--" ++ boundary) (pre.elim [] (· ++ b!"\r\n") ++ (b!"--" ++ boundary ++ rest')) = rest' ∧
      Py.find b!"\r\n\r\n" (P.take 1024) = none ∧ P.length < 1024 := by
    cases pre with
    | none =>
      obtain ⟨c1, c2⟩ := cut_first (sep := b!"--" ++ boundary) (rest := rest')
      exact ⟨[], by simpa using c1, by simpa using c2, by decide, by simp⟩
    | some p =>
      obtain ⟨a1, a2, a3⟩ := hpre p rfl
      obtain ⟨c1, c2⟩ := cut_form (rest := rest') h13 a1
      refine ⟨p, by simpa using c1, by simpa using c2, ?_, a3⟩
      exact Py.find_none_iff_not_infix.2 (fun hc => a2 (hc.trans (List.take_prefix _ _).isInfix))
  refine .later (t := .raw) (md := []) (content := P) (by simp) (by rw [hP1]; exact .noHeader hP3)
    (.unnamed rfl (by rw [hP1]; exact hP4)) ?_
  rw [hP2]
  exact hr

theorem overError_cases (te : Option Bytes) (t : Bytes) :
    overError te t = .requestDataTooBig ∨ (te = some b!"base64" ∧ overError te t = .typeError) := by
  unfold overError
  split
  · rename_i h; exact .inr ⟨h.1, rfl⟩
  · exact .inl rfl

section
variable {ρ : Type} [Producer ρ] {L : Lawful ρ}

theorem parse_over (C : Codecs) (S : Settings) (hq : emptyQueryDict C S = .ok ())
    (os : Os) (hos : ∀ e, os.tempFile e = .ok ()) (fuel64 : Nat) (m : MultiPart) (hc : 1 ≤ m.chunkSize)
    (hl : m.contentLength ≠ 0) (hs : List Builtin) (heap : Heap) (ht : Takes S m.contentLength hs)
    (input : LazyStream ρ) (hi : SOK L input) (hf : (L.sc input).length ≤ fuel64) {k : Int} (hk : S.dataMaxMemory = some k)
    {te : Option Bytes} {t : Bytes}
    (hb : ComesOver C S (b!"--" ++ m.boundary) k (overError te t) (L.sc input) ⟨[], [], none, 0, 0⟩) :
    (m.parse C S (builtinOps ρ os hs.length) fuel64 input ⟨hs, heap⟩).1 = .error (overError te t) := by
  have hraw := rawInputLoop_builtin (ρ := ρ) os hs.length ⟨m.contentLength, m.boundary, S⟩ input heap hs []
  simp only [List.length_nil, List.nil_append, ← List.range_eq_range'] at hraw
  rcases parse_spec (L := L) C S _ fuel64 m hc hl input input _ _ hraw hi with
    ⟨e', h1, h2⟩ | ⟨_, r, D', st', s', R, w', h1, h2, h3, _⟩
  · rw [hq] at h1; simp at h1
  · have habs : Abs (BReady hs.length) (BBusy hs.length) (PState.start (builtinOps ρ os hs.length)
        ⟨hs.map (Builtin.rawInput ⟨m.contentLength, m.boundary, S⟩), heap⟩) ⟨[], [], none, 0, 0⟩ :=
      ⟨rfl, rfl, rfl, [], rfl, rfl, rfl, ht.ready _ _⟩
    have hr := Parses.comesOver hk hb (builtin_stores (ρ := ρ) hos hs.length) hf habs h2
    rw [h1]
    subst hr
    rcases overError_cases te t with h | ⟨_, h⟩ <;>
      (rw [h] at h3 ⊢; simp only [endParse, Prod.mk.injEq] at h3; exact h3.1.symm)

/-- **C107 for every written form, with or without base64.** The limit lets a form through exactly if its fields *as they were
sent* (text, name and 2 bytes each) are within it.  Else the form is refused, with `RequestDataTooBig` or, if a field is in
base64, possibly with `TypeError`.  (Partial: C107 is about the values.) -/
theorem C107_written_partial (C : Codecs) (hC : ∀ b, C.Avoids (.stopUpload b))
    (S : Settings) {k : Int} (hk : S.dataMaxMemory = some k) (hk0 : 0 ≤ k) (hq : emptyQueryDict C S = .ok ())
    (hcs : ∀ n, (∀ c ∈ n, c < 128) → C.strEncode S.defaultCharset n = .ok n)
    (os : Os) (hos : ∀ e, os.tempFile e = .ok ()) (fuel64 : Nat) (m : MultiPart) (hc : 1 ≤ m.chunkSize)
    (hl : m.contentLength ≠ 0) (h13 : 13 ∉ m.boundary) (hs : List Builtin) (heap : Heap) (ht : Takes S m.contentLength hs)
    {pre : Option Bytes} {epi : Bytes} (ha : Around m.boundary pre epi) (ps : List Sent)
    (hok : ∀ p ∈ ps, p.Ok C m.boundary)
    (hcnt : ∀ n, S.maxFields = some n → ((saidFields (ps.map Sent.said)).length : Int) ≤ n)
    (input : LazyStream ρ) (hi : SOK L input) (hin : L.sc input = sentBody m.boundary pre ps (b!"--" ++ epi))
    (hf : (L.sc input).length ≤ fuel64) :
    (((saidSize (ps.map Sent.said) : Nat) : Int) ≤ k →
      viewOf (m.parse C S (builtinOps ρ os hs.length) fuel64 input ⟨hs, heap⟩).1
        (m.parse C S (builtinOps ρ os hs.length) fuel64 input ⟨hs, heap⟩).2.2.heap = .ok (saidView (ps.map Sent.said))) ∧
    (k < ((saidSize (ps.map Sent.said) : Nat) : Int) →
      (m.parse C S (builtinOps ρ os hs.length) fuel64 input ⟨hs, heap⟩).1 = .error .requestDataTooBig ∨
      ((∃ p ∈ ps, encodingOf p.fields = some b!"base64") ∧
        (m.parse C S (builtinOps ρ os hs.length) fuel64 input ⟨hs, heap⟩).1 = .error .typeError)) := by
  refine ⟨fun h => ?_, fun h => ?_⟩
  · exact C133_written_partial C hC S (fun n hn => by rw [hk] at hn; cases hn; exact hk0) hq hcs os hos fuel64 m hc hl h13 hs heap
      ht ha ps hok ⟨hcnt, fun n hn => by rw [hk] at hn; cases hn; exact h⟩ input hi hin hf
  · obtain ⟨p, hp, t, hb⟩ := body_over (rest := b!"--" ++ epi) hcs h13
      (fun p hp => ⟨ha.preSep p hp, ha.preHead p hp, ha.preShort p hp⟩) hk hk0 ps hok hcnt h
    have := parse_over C S hq os hos fuel64 m hc hl hs heap ht input hi hf hk (by rw [hin]; exact hb)
    rw [this]
    rcases overError_cases (encodingOf p.fields) t with h | ⟨h1, h⟩
    · exact .inl (by rw [h])
    · exact .inr ⟨⟨p, hp, h1⟩, by rw [h]⟩

variable {E : Env ρ BWorld Uploaded} {S : Settings} {p : ρ} {m : Message}
  {host port type : Bytes} {ps : List (Bytes × Bytes)} {qs : List (UStr × UStr)} {b cl : Bytes} {n : Nat}
  {w : BWorld} {hs : List Builtin} {heap : Heap}

/-- **C107 is false for all requests with such forms**: a form that is within the limit (`plainSize`), but is not as it was sent
(`saidSize`), is refused, and `POST` and `FILES` stay empty. -/
theorem C107_request_refuted (h : Arrives L E.C S p m host port (some type) ps qs)
    (hty : b!"multipart/" <+: type) (hlo : Py.lower type = b!"multipart/form-data")
    (hb : param ps b!"boundary" = some b) (hbo : BoundaryOk (Py.toU b)) (h13 : 13 ∉ b)
    (hcl : m.header b!"Content-Length" = some cl) (hn : Numeral 10 DecDigit cl n) (h0 : n ≠ 0)
    (hC : ∀ b, E.C.Avoids (.stopUpload b)) (hmem : Allowed S.dataMaxMemory 0)
    (os : Os) (hos : ∀ e, os.tempFile e = .ok ()) (hl : E.load w = (.ok (builtinOps ρ os hs.length), ⟨hs, heap⟩))
    (ht : Takes S n hs) (hf : m.body.length ≤ E.fuel64)
    {pre : Option Bytes} {epi : Bytes} (ha : Around b pre epi) (sent : List Sent)
    (hok : ∀ p ∈ sent, p.Ok E.C b) (hbody : m.body = sentBody b pre sent (b!"--" ++ epi))
    (hcnt : ∀ n, S.maxFields = some n → ((saidFields (sent.map Sent.said)).length : Int) ≤ n)
    {k : Int} (hk : S.dataMaxMemory = some k) (_hfits : ((plainSize (sent.map Sent.said) : Nat) : Int) ≤ k)
    (hlt : k < ((saidSize (sent.map Sent.said) : Nat) : Int)) :
    ∃ (r0 r' : Req ρ BWorld Uploaded) (w' : BWorld) (e : Exc), (e = .requestDataTooBig ∨ e = .typeError) ∧ Req.new E.C S p = .ok r0 ∧
      parseRequest E S r0 w = (.error e, charsetAfter S ps, r', w') ∧ HeadRead m host port (some type) qs r' ∧
      r'.bodyParsed = false ∧ r'.post = some (.query ⟨[], true⟩) ∧ r'.files = some [] := by
  have hST := charsetAfter_fields S ps
  have hne : m.body ≠ [] := by rw [hbody]; cases pre <;> simp [sentBody]
  have ht' : Takes (charsetAfter S ps) n hs := by unfold Takes at ht ⊢; rw [hST.2.2]; exact ht
  have hhs : hs ≠ [] := by obtain ⟨⟨x, hx, _⟩, _⟩ := ht; rintro rfl; cases hx
  have hk0 : 0 ≤ k := by
    obtain ⟨l, hl1, hl2⟩ := hmem
    rw [hk] at hl1; cases hl1
    simpa using hl2
  have hk' : (charsetAfter S ps).dataMaxMemory = some k := by rw [hST.2.1]; exact hk
  obtain ⟨q, _, t, hc⟩ := body_over (S := charsetAfter S ps) (rest := b!"--" ++ epi) h.codec.str h13
    (fun p hp => ⟨ha.preSep p hp, ha.preHead p hp, ha.preShort p hp⟩) hk' hk0 sent hok (by rw [hST.1]; exact hcnt) hlt
  obtain ⟨r0, r', w', a1, a2, a3, a4⟩ := request_view h hty hlo hb hbo hcl hn h0 hne hC hmem os (plain_of_works hos) hl hhs
    (.error (overError (encodingOf q.fields) t)) (fun k s hk hs' hsc hq => by
      have := parse_over (L := L) E.C (charsetAfter S ps) hq os hos E.fuel64 ⟨b, k, n⟩ hk h0 hs heap ht' s hs'
        (by rw [hsc]; exact hf) hk' (by rw [hsc, hbody]; exact hc)
      rw [this]; rfl)
  refine ⟨r0, r', w', _, ?_, a1, a2, a3, a4⟩
  rcases overError_cases (encodingOf q.fields) t with h | ⟨_, h⟩
  · exact .inl h
  · exact .inr h

/-! ### A form that meets the hypotheses -/

/-- A field sent in base64: three bytes, sent as four. -/
def sentCoded : Sent where
  fields := [⟨b!"Content-Disposition", b!"form-data", [(b!"name", .b b!"note")]⟩,
    ⟨b!"Content-Transfer-Encoding", b!"base64", []⟩]
  content := b!"SGVs"
  text := b!"\r\nContent-Disposition: form-data; name=note\r\nContent-Transfer-Encoding: base64\r\n\r\nSGVs"
  said := .field b!"note" 4 ⟨b!"Hel", [], b!"base64", []⟩

private theorem vis (s t : Bytes) (h : (s.all fun c => decide (33 ≤ c ∧ c ≤ 126) && decide (c ∉ t)) = true) :
    ∀ c ∈ s, Visible c ∧ c ∉ t := by
  intro c hc
  have := List.all_eq_true.1 h c hc
  simpa [Visible] using this

private theorem ends (s : Bytes) (h : (s.all fun c => decide (c ∉ byteBlanks)) = true) (c : UInt8)
    (hc : s.head? = some c ∨ s.getLast? = some c) : c ∉ byteBlanks := by
  have hm : c ∈ s := hc.elim List.mem_of_head? List.mem_of_getLast?
  simpa using List.all_eq_true.1 h c hm

theorem sentCoded_ok (C : Codecs) : sentCoded.Ok C b!"B" := by
  refine ⟨⟨⟨[b!"Content-Disposition: form-data; name=note", b!"Content-Transfer-Encoding: base64"], ?_, by decide, rfl⟩,
    by decide +kernel⟩, ?_⟩
  · refine .cons ⟨vis _ _ rfl, ⟨by decide, vis _ _ rfl⟩, by decide, _, .plain .nil (n := b!"name") (v := b!"note")
      ⟨by decide, vis _ _ rfl⟩ (by decide) (.inl ⟨fun c hc => (vis b!"note" [] rfl c hc).1, rfl⟩), rfl⟩ ?_
    exact .cons ⟨vis _ _ rfl, ⟨by decide, vis _ _ rfl⟩, by decide, _, .nil, rfl⟩ .nil
  · exact .field (cd := ⟨b!"Content-Disposition", b!"form-data", [(b!"name", .b b!"note")]⟩) (p := .b b!"note") rfl rfl
      (.bytes ⟨[], [], rfl, by simp, ends _ rfl⟩) (by decide) (by intro q h; cases h) (by
        show FieldData (some b!"base64") _ _
        unfold FieldData; rw [if_pos rfl]
        exact .three 72 101 108 .nil)

/-- The field takes 3 + 4 + 2 = 9 bytes; under a limit of 9 it is refused, however the request is cut. -/
example (cs : List Bytes)
    (h : cs.flatten = (formMessage (sentBody b!"B" none [sentCoded] (b!"--" ++ b!"\r\n"))).text) :
    ∃ (r0 r' : Req Source BWorld Uploaded) (w' : BWorld) (e : Exc), (e = .requestDataTooBig ∨ e = .typeError) ∧
      Req.new pyCodecs { dataMaxMemory := some 9 } ⟨cs⟩ = .ok r0 ∧
      parseRequest (tempEnv 1000) { dataMaxMemory := some 9 } r0 ⟨[], []⟩ =
        (.error e, charsetAfter { dataMaxMemory := some 9 } [(b!"boundary", b!"B")], r', w') ∧
      r'.bodyParsed = false := by
  have a := formMessage_arrives py_latin1 _ cs h
  have a' : Arrives Source.lawful pyCodecs { dataMaxMemory := some 9 } ⟨cs⟩
      (formMessage (sentBody b!"B" none [sentCoded] (b!"--" ++ b!"\r\n"))) b!"a.b" [] (some b!"multipart/form-data")
      [(b!"boundary", b!"B")] [] :=
    ⟨a.size, a.inv, a.ok, a.text, a.host, a.content, a.codec0, a.codec, a.query, a.limit⟩
  obtain ⟨r0, r', w', e, h1, h2, h3, -, h4, -⟩ := C107_request_refuted (S := { dataMaxMemory := some 9 }) (E := tempEnv 1000)
    a' (by decide) (by decide +kernel) (b := b!"B") (by decide +kernel) boundaryB (by decide) rfl three_hundred (by decide) pyCodecs_default.1
    ⟨_, rfl, by decide⟩ goodOs (fun _ => rfl) (w := ⟨[], []⟩) (hs := [.temp {}]) rfl
    ⟨⟨.temp {}, by simp, trivial⟩, by simp⟩ (by decide +kernel) (pre := none) (epi := b!"\r\n")
    gapAroundB [sentCoded] (by intro p hp; cases List.mem_singleton.1 hp; exact sentCoded_ok _) rfl
    (by intro n hn; cases hn; decide) (k := 9) rfl (by decide) (by decide)
  exact ⟨r0, r', w', e, h1, h2, h3, h4⟩

/-- For every chunk size, cutting and limit. -/
example (c : Nat) (hc : 1 ≤ c) (k : Int) (hk : 0 ≤ k) (cs : List Bytes)
    (h : cs.flatten = sentBody b!"B" none [sentNote, sentCoded] (b!"--" ++ b!"\r\n")) :=
  C107_written_partial (L := Source.lawful) pyCodecs pyCodecs_default.1 { dataMaxMemory := some k } rfl hk rfl pyCodecs_default.2.2 goodOs
    (fun _ => rfl) 1000 ⟨b!"B", c, 300⟩ hc (by simp) (by simp) [.conv {}] [] ⟨⟨.conv {}, by simp, trivial⟩, by intro h _ _; show (0 : Int) ≤ ({} : Settings).fileMaxMemory; decide⟩
    gapAroundB [sentNote, sentCoded]
    (by
      intro p hp
      simp only [List.mem_cons, List.not_mem_nil, or_false] at hp
      rcases hp with rfl | rfl
      exacts [sentNote_ok _, sentCoded_ok _])
    (by intro n hn; cases hn; decide) (LazyStream.mk' ⟨cs⟩) (SOK.fresh cs) (by rw [sc_fresh]; exact h)
    (by rw [sc_fresh, h]; decide +kernel)

end

end Verif
