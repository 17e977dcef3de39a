import Verif.Spec.Request
import Verif.Proofs.Multipart
import Verif.Proofs.Find
/-! The methods of the request object over a lawful input stream. -/

namespace Verif

variable {ρ σ F : Type} [Producer ρ]

/-- A stream in good order whose push-back history leaves room: `SOK` with an explicit budget. -/
structure SK (L : Lawful ρ) (k : Nat) (s : LazyStream ρ) : Prop where
  inv : L.Inv s.producer
  hist : HistOK k s.history s.leftover.length
  len : s.length = none

section
variable {L : Lawful ρ} {k : Nat} {s : LazyStream ρ}

theorem SK.fresh (L : Lawful ρ) (p : ρ) (h : L.Inv p) : SK L 0 (LazyStream.mk' p) :=
  ⟨h, HistOK.nil _ _, rfl⟩

theorem SK.mono {k'} (h : SK L k s) (hk : k ≤ k') : SK L k' s := ⟨h.inv, h.hist.mono_k hk, h.len⟩

theorem SK.toSOK (h : SK L k s) (hk : k ≤ 39) : SOK L s := ⟨h.inv, h.hist.mono_k hk, h.len⟩

theorem SK.read (h : SK L k s) (hk : k ≤ 39) (n : Nat) :
    ∃ s', s.read (some n) = (.ok ((L.sc s).take n), s') ∧ SK L k s' ∧ L.sc s' = (L.sc s).drop n ∧
      s'.size + min n (L.sc s).length ≤ s.size := by
  obtain ⟨s', a1, a2, a3, _, a5, a6, _, a8⟩ := LazyStream.read_ok L k hk n s h.inv h.hist
  exact ⟨s', a1, ⟨a2, a8, by rw [a5, h.len]⟩, a3, a6⟩

theorem SK.unget (h : SK L k s) (hk : k ≤ 38) (b : Bytes) :
    ∃ s', s.unget b = (.ok (), s') ∧ SK L (k + 2) s' ∧ L.sc s' = b ++ L.sc s := by
  have hp := fun m l' => HistOK.anyPush (m := m) l' h.hist
  obtain ⟨s', e, b1, b2, _, b4, b5⟩ := LazyStream.unget_ok s b (by
    intro _
    have h1 := h.hist.count_any b.length
    have h2 : ((s.history.take 49).filter (· = b.length)).length ≤ k + 1 :=
      (List.Sublist.length_le ((List.take_sublist _ _).filter _)).trans h1
    rw [List.filter_cons]
    split
    · rw [List.length_cons]; omega
    · omega)
  refine ⟨s', e, ⟨by rw [b1]; exact h.inv, ?_, by rw [b4, h.len]⟩, ?_⟩
  · rw [b5]
    split
    · rename_i hb
      rw [b2, hb]
      exact h.hist.mono_k (by omega)
    · exact hp _ _
  · simp [Lawful.sc, b1, b2]

end

/-! ### The header loop -/

theorem headerLoop_spec {L : Lawful ρ} {k : Nat} (hk : k ≤ 39) (n : Nat) (hn : 1 ≤ n) :
    ∀ (fuel : Nat) (acc : Bytes) (st : Bool) (s : LazyStream ρ), SK L k s → s.size < fuel →
      Py.find b!"\r\n\r\n" acc = none →
      (∃ i s' rest, Py.find b!"\r\n\r\n" (acc ++ L.sc s) = some i ∧
        headerLoop n fuel acc st s = (.ok ((acc ++ L.sc s).take i, rest), s', true) ∧ SK L k s' ∧
        rest ++ L.sc s' = (acc ++ L.sc s).drop (i + 4)) ∨
      (Py.find b!"\r\n\r\n" (acc ++ L.sc s) = none ∧
        ∃ s', headerLoop n fuel acc st s = (.error .invalidHttpRequest, s', true) ∧ SK L k s' ∧
          L.sc s' = []) := by
  intro fuel
  induction fuel with
  | zero => intro _ _ s _ h; omega
  | succ fuel ih =>
    intro acc st s hs hf hacc
    obtain ⟨s1, e, hs1, c1, z1⟩ := hs.read hk n
    unfold headerLoop
    rw [e]
    simp only
    by_cases hc : (L.sc s).take n = []
    · right
      have h0 : L.sc s = [] := by
        rcases List.take_eq_nil_iff.1 hc with h | h
        · omega
        · exact h
      rw [if_pos hc]
      refine ⟨by rw [h0]; simpa using hacc, s1, rfl, hs1, by rw [c1, h0]; simp⟩
    · rw [if_neg hc]
      have hpos : 0 < (L.sc s).length := by
        apply List.length_pos_iff.2
        intro h; apply hc; rw [h]; simp
      have hsplit : acc ++ (L.sc s).take n ++ L.sc s1 = acc ++ L.sc s := by
        rw [c1, List.append_assoc, List.take_append_drop]
      cases hfd : Py.find b!"\r\n\r\n" (acc ++ (L.sc s).take n) with
      | some i =>
        left
        have hb := Py.find_bound hfd
        have hl : (b!"\r\n\r\n" : Bytes).length = 4 := rfl
        rw [hl] at hb
        refine ⟨i, s1, (acc ++ (L.sc s).take n).drop (i + 4), ?_, ?_, hs1, ?_⟩
        · rw [← hsplit]; exact Py.find_append_left hfd
        · rw [← hsplit, List.take_append_of_le_length (by omega)]
        · rw [← hsplit, List.drop_append_of_le_length hb]
      | none =>
        have := ih (acc ++ (L.sc s).take n) true s1 hs1 (by omega) hfd
        rw [hsplit] at this
        exact this

/-- `parse_request_header` on a stream in good order: what it hands to `applyHeader`. -/
theorem parseRequestHeader_spec {L : Lawful ρ} {k : Nat} (hk : k ≤ 38) (E : Env ρ σ F)
    (S : Settings) (hS : 1 ≤ S.maxHeaderSize) (r : Req ρ σ F) (hr : r.headerParsed = false)
    (hs : SK L k r.stream) :
    (∃ i s', Py.find b!"\r\n\r\n" (L.sc r.stream) = some i ∧
      parseRequestHeader E S r = applyHeader E ((L.sc r.stream).take i) S
        { r with stream := s', headerParsed := true } ∧
      SK L (k + 2) s' ∧ L.sc s' = (L.sc r.stream).drop (i + 4)) ∨
    (Py.find b!"\r\n\r\n" (L.sc r.stream) = none ∧
      ∃ s', parseRequestHeader E S r =
        (.error .invalidHttpRequest, S, { r with stream := s', headerParsed := true }) ∧
        SK L k s' ∧ L.sc s' = []) := by
  obtain ⟨n, hn⟩ : ∃ n : Nat, S.maxHeaderSize = n := ⟨S.maxHeaderSize.toNat, by omega⟩
  have h1 : 1 ≤ n := by omega
  unfold parseRequestHeader
  rw [hr, hn]
  simp only [Bool.false_eq_true, if_false]
  rcases headerLoop_spec (L := L) (by omega) n h1 (r.stream.size + 2) [] false r.stream hs
      (by omega) rfl with ⟨i, s', rest, a1, a2, a3, a4⟩ | ⟨a1, s', a2, a3, a4⟩
  · left
    obtain ⟨s2, b1, b2, b3⟩ := a3.unget hk rest
    rw [a2]
    simp only [b1]
    refine ⟨i, s2, a1, rfl, b2, ?_⟩
    rw [b3, a4]; rfl
  · right
    rw [a2]
    exact ⟨a1, s', rfl, a3, a4⟩

/-! ### What `applyHeader` leaves alone -/

/-- The settings agree in everything but the default charset. -/
def SameButCharset (S S' : Settings) : Prop := S' = { S with defaultCharset := S'.defaultCharset }

theorem SameButCharset.refl (S : Settings) : SameButCharset S S := rfl

/-- What the header parser does not touch once the header text is known. -/
structure HeadFrame (r r' : Req ρ σ F) : Prop where
  stream : r'.stream = r.stream
  headerParsed : r'.headerParsed = r.headerParsed
  bodyParsed : r'.bodyParsed = r.bodyParsed
  post : r'.post = r.post
  files : r'.files = r.files
  files_ : r'.files_ = r.files_
  handlers : r'.handlers = r.handlers
  post_ : r'.post_ = r.post_ ∨ r'.post_ = none
  body_ : r'.body_ = r.body_ ∨ r'.body_ = none

theorem HeadFrame.refl (r : Req ρ σ F) : HeadFrame r r :=
  ⟨rfl, rfl, rfl, rfl, rfl, rfl, rfl, .inl rfl, .inl rfl⟩

theorem applyContentType_frame (C : Codecs) (h : MVD Bytes) (S : Settings) (r : Req ρ σ F) :
    HeadFrame r (applyContentType C h S r).2.2 ∧
      SameButCharset S (applyContentType C h S r).2.1 := by
  unfold applyContentType
  cases h.get? b!"Content-Type" with
  | none => exact ⟨⟨rfl, rfl, rfl, rfl, rfl, rfl, rfl, .inl rfl, .inl rfl⟩, rfl⟩
  | some vs =>
    simp only
    cases parseHeader C (vs.getLast?.getD []) with
    | error e => exact ⟨.refl _, rfl⟩
    | ok cp =>
      obtain ⟨ct, params⟩ := cp
      simp only
      cases params.get? b!"charset" with
      | none => exact ⟨⟨rfl, rfl, rfl, rfl, rfl, rfl, rfl, .inl rfl, .inl rfl⟩, rfl⟩
      | some v => exact ⟨⟨rfl, rfl, rfl, rfl, rfl, rfl, rfl, .inr rfl, .inr rfl⟩, rfl⟩

theorem applyQuery_frame (C : Codecs) (q : Bytes) (h : MVD Bytes) (S : Settings)
    (r : Req ρ σ F) :
    HeadFrame r (applyQuery C q h S r).2.2 ∧ (applyQuery C q h S r).2.1 = S := by
  unfold applyQuery
  cases r.info with
  | none => exact ⟨.refl _, rfl⟩
  | some m =>
    simp only
    split
    · exact ⟨⟨rfl, rfl, rfl, rfl, rfl, rfl, rfl, .inl rfl, .inl rfl⟩, rfl⟩
    · exact ⟨⟨rfl, rfl, rfl, rfl, rfl, rfl, rfl, .inl rfl, .inl rfl⟩, rfl⟩

theorem HeadFrame.trans {a b c : Req ρ σ F} (h : HeadFrame a b) (g : HeadFrame b c) :
    HeadFrame a c where
  stream := g.stream.trans h.stream
  headerParsed := g.headerParsed.trans h.headerParsed
  bodyParsed := g.bodyParsed.trans h.bodyParsed
  post := g.post.trans h.post
  files := g.files.trans h.files
  files_ := g.files_.trans h.files_
  handlers := g.handlers.trans h.handlers
  post_ := by
    rcases g.post_ with e | e
    · rw [e]; exact h.post_
    · exact .inr e
  body_ := by
    rcases g.body_ with e | e
    · rw [e]; exact h.body_
    · exact .inr e

theorem applyHeader_frame (E : Env ρ σ F) (header : Bytes) (S : Settings) (r : Req ρ σ F) :
    HeadFrame r (applyHeader E header S r).2.2 ∧
      SameButCharset S (applyHeader E header S r).2.1 := by
  unfold applyHeader
  cases parseRequestHeaders (header ++ b!"\r\n") with
  | error e => exact ⟨.refl _, rfl⟩
  | ok lh =>
    obtain ⟨line, h⟩ := lh
    simp only
    cases parseRequestLine E.up line with
    | error e => exact ⟨.refl _, rfl⟩
    | ok l =>
      simp only
      cases hostText l h with
      | error e => exact ⟨.refl _, rfl⟩
      | ok hh =>
        obtain ⟨host, h⟩ := hh
        simp only
        generalize hr1 : ({ r with scheme := _, host := _, port := _, method := _, path := _,
                                   proto := _ } : Req ρ σ F) = r1
        have f1 : HeadFrame r r1 := by
          rw [← hr1]; exact ⟨rfl, rfl, rfl, rfl, rfl, rfl, rfl, .inl rfl, .inl rfl⟩
        have f2 := applyContentType_frame E.C h S r1
        rcases hct : applyContentType E.C h S r1 with ⟨x, S2, r2⟩
        rw [hct] at f2
        cases x with
        | error e => exact ⟨f1.trans f2.1, f2.2⟩
        | ok u =>
          simp only
          have f3 := applyQuery_frame E.C l.query h S2 r2
          refine ⟨(f1.trans f2.1).trans f3.1, ?_⟩
          rw [f3.2]; exact f2.2

/-! ### Reading the body -/

theorem withinLimit_mono {limit : Option Int} {m n : Nat} (h : m ≤ n)
    (hn : withinLimit limit n = true) : withinLimit limit m = true := by
  cases limit with
  | none => simp [withinLimit] at hn
  | some l => simp [withinLimit] at hn ⊢; omega

theorem bodyLoop_spec {L : Lawful ρ} {k : Nat} (hk : k ≤ 39) (limit : Option Int) :
    ∀ (fuel : Nat) (acc chunk : Bytes) (s : LazyStream ρ), SK L k s → 1 ≤ fuel →
      (chunk ≠ [] → s.size + 2 ≤ fuel) → (chunk = [] → L.sc s = []) →
      ∃ s', SK L k s' ∧ (∃ j, L.sc s' = (L.sc s).drop j) ∧
      ((withinLimit limit (acc ++ chunk ++ L.sc s).length = true ∧ L.sc s' = [] ∧
        bodyLoop limit fuel acc chunk (acc.length + chunk.length) s
          = (.ok (acc ++ chunk ++ L.sc s), s')) ∨
      (withinLimit limit (acc ++ chunk ++ L.sc s).length = false ∧
        bodyLoop limit fuel acc chunk (acc.length + chunk.length) s
          = (.error .requestDataTooBig, s'))) := by
  intro fuel
  induction fuel with
  | zero => intro _ _ s _ h; omega
  | succ fuel ih =>
    intro acc chunk s hs _ hf hc
    unfold bodyLoop
    by_cases hw : withinLimit limit (acc.length + chunk.length) = true
    · by_cases hne : chunk = []
      · have h0 := hc hne
        subst hne
        refine ⟨s, hs, ⟨0, rfl⟩, .inl ⟨?_, h0, ?_⟩⟩
        · rw [h0]; simpa using hw
        · rw [if_neg (by simp), if_neg (by rw [hw]; simp), h0]; simp
      · rw [if_pos ⟨hw, hne⟩]
        obtain ⟨s1, e, hs1, c1, z1⟩ := hs.read hk 65536
        have e' : s.read (some 65536) = (.ok ((L.sc s).take 65536), s1) := e
        rw [e']
        simp only
        have hf' := hf hne
        obtain ⟨s2, g1, ⟨j, g2⟩, g3⟩ := ih (acc ++ chunk) ((L.sc s).take 65536) s1 hs1 (by omega)
          (by
            intro h
            have : 0 < (L.sc s).length := by
              apply List.length_pos_iff.2
              intro h'; apply h; rw [h']; rfl
            omega)
          (by
            intro h
            rcases List.take_eq_nil_iff.1 h with h | h
            · omega
            · rw [c1, h]; rfl)
        have hall : acc ++ chunk ++ (L.sc s).take 65536 ++ L.sc s1 = acc ++ chunk ++ L.sc s := by
          rw [c1, List.append_assoc, List.take_append_drop]
        rw [hall, List.length_append (as := acc) (bs := chunk)] at g3
        refine ⟨s2, g1, ⟨65536 + j, ?_⟩, g3⟩
        rw [g2, c1, List.drop_drop]
    · have hw' : withinLimit limit (acc.length + chunk.length) = false := by simpa using hw
      refine ⟨s, hs, ⟨0, rfl⟩, .inr ⟨?_, ?_⟩⟩
      · rw [← Bool.not_eq_true]
        intro h
        apply hw
        apply withinLimit_mono _ h
        simp
      · rw [if_neg (by rw [hw']; simp), if_pos hw']

/-- `body` on a stream in good order with no body stored. -/
theorem readBody_spec {L : Lawful ρ} {k : Nat} (hk : k ≤ 39) (S : Settings) (r : Req ρ σ F)
    (hs : SK L k r.stream) :
    ∃ s', SK L k s' ∧ (∃ j, L.sc s' = (L.sc r.stream).drop j) ∧
      ((withinLimit S.dataMaxMemory (L.sc r.stream).length = true ∧ L.sc s' = [] ∧
        readBody S r = (.ok (.b (L.sc r.stream)),
          { r with stream := s', body_ := some (.b (L.sc r.stream)) })) ∨
      (withinLimit S.dataMaxMemory (L.sc r.stream).length = false ∧
        readBody S r = (.error .requestDataTooBig, { r with stream := s' }))) := by
  obtain ⟨s1, e, hs1, c1, z1⟩ := hs.read hk 65536
  have e' : r.stream.read (some 65536) = (.ok ((L.sc r.stream).take 65536), s1) := e
  have hall : (L.sc r.stream).take 65536 ++ L.sc s1 = L.sc r.stream := by
    rw [c1, List.take_append_drop]
  obtain ⟨s2, g1, ⟨j, g2⟩, g3⟩ := bodyLoop_spec hk S.dataMaxMemory (s1.size + 2) []
    ((L.sc r.stream).take 65536) s1 hs1 (by omega) (by intro _; omega) (by
      intro h
      rcases List.take_eq_nil_iff.1 h with h | h
      · omega
      · rw [c1, h]; rfl)
  rw [List.nil_append, hall] at g3
  refine ⟨s2, g1, ⟨65536 + j, by rw [g2, c1, List.drop_drop]⟩, ?_⟩
  unfold readBody
  rw [e']
  simp only
  have hz : ([] : Bytes).length + ((L.sc r.stream).take 65536).length =
    ((L.sc r.stream).take 65536).length := by simp
  rw [hz] at g3
  rcases g3 with ⟨h1, h2, h3⟩ | ⟨h1, h2⟩
  · exact .inl ⟨h1, h2, by rw [h3]⟩
  · exact .inr ⟨h1, by rw [h2]⟩

/-! ### What the results do not depend on -/

/-- `r` with the results of an earlier body (and the handlers) of `x`. -/
def Req.over (r x : Req ρ σ F) : Req ρ σ F :=
  { r with post := x.post, files := x.files, post_ := x.post_, files_ := x.files_,
           handlers := x.handlers }

theorem applyContentType_over (C : Codecs) (h : MVD Bytes) (S : Settings) (r x : Req ρ σ F) :
    ∃ x', applyContentType C h S (r.over x) =
      ((applyContentType C h S r).1, (applyContentType C h S r).2.1,
        (applyContentType C h S r).2.2.over x') ∧ x'.post = x.post ∧ x'.files = x.files := by
  unfold applyContentType
  cases h.get? b!"Content-Type" with
  | none => exact ⟨x, rfl, rfl, rfl⟩
  | some vs =>
    simp only
    cases parseHeader C (vs.getLast?.getD []) with
    | error e => exact ⟨x, rfl, rfl, rfl⟩
    | ok cp =>
      obtain ⟨ct, params⟩ := cp
      simp only
      cases params.get? b!"charset" with
      | none => exact ⟨x, rfl, rfl, rfl⟩
      | some v => exact ⟨{ x with post_ := none }, rfl, rfl, rfl⟩

theorem applyQuery_over (C : Codecs) (q : Bytes) (h : MVD Bytes) (S : Settings)
    (r x : Req ρ σ F) :
    applyQuery C q h S (r.over x) = ((applyQuery C q h S r).1, (applyQuery C q h S r).2.1,
        (applyQuery C q h S r).2.2.over x) := by
  unfold applyQuery
  have : (r.over x).info = r.info := rfl
  rw [this]
  cases r.info with
  | none => rfl
  | some m =>
    simp only
    split <;> rfl

theorem applyHeader_over (E : Env ρ σ F) (header : Bytes) (S : Settings) (r x : Req ρ σ F) :
    ∃ x', applyHeader E header S (r.over x) =
      ((applyHeader E header S r).1, (applyHeader E header S r).2.1,
        (applyHeader E header S r).2.2.over x') ∧ x'.post = x.post ∧ x'.files = x.files := by
  unfold applyHeader
  cases parseRequestHeaders (header ++ b!"\r\n") with
  | error e => exact ⟨x, rfl, rfl, rfl⟩
  | ok lh =>
    obtain ⟨line, h⟩ := lh
    simp only
    cases parseRequestLine E.up line with
    | error e => exact ⟨x, rfl, rfl, rfl⟩
    | ok l =>
      simp only
      cases hostText l h with
      | error e => exact ⟨x, rfl, rfl, rfl⟩
      | ok hh =>
        obtain ⟨host, h⟩ := hh
        simp only
        generalize hr1 : ({ r with scheme := _, host := _, port := _, method := _, path := _,
                                   proto := _ } : Req ρ σ F) = r1
        have e1 : ({ r.over x with
            scheme := some (if l.scheme ≠ [] then Py.lower l.scheme else b!"UNKNOWN"),
            host := some (splitDomainPort host).1,
            port := some (portOf l.scheme (splitDomainPort host).2),
            method := some l.method, path := some l.path, proto := some l.proto } : Req ρ σ F)
            = r1.over x := by
          rw [← hr1]; rfl
        rw [e1]
        obtain ⟨x', f2, f3, f4⟩ := applyContentType_over E.C h S r1 x
        rw [f2]
        rcases applyContentType E.C h S r1 with ⟨o, S2, r2⟩
        cases o with
        | error e => exact ⟨x', rfl, f3, f4⟩
        | ok u =>
          simp only
          rw [applyQuery_over]
          exact ⟨x', rfl, f3, f4⟩

theorem parseRequestHeader_over (E : Env ρ σ F) (S : Settings) (r x : Req ρ σ F) :
    ∃ x', parseRequestHeader E S (r.over x) =
      ((parseRequestHeader E S r).1, (parseRequestHeader E S r).2.1,
        (parseRequestHeader E S r).2.2.over x') ∧ x'.post = x.post ∧ x'.files = x.files := by
  unfold parseRequestHeader
  have e1 : (r.over x).headerParsed = r.headerParsed := rfl
  have e2 : (r.over x).stream = r.stream := rfl
  rw [e1, e2]
  cases r.headerParsed with
  | true => exact ⟨x, rfl, rfl, rfl⟩
  | false =>
    simp only [Bool.false_eq_true, if_false]
    rcases headerLoop S.maxHeaderSize (r.stream.size + 2) [] false r.stream with ⟨o, s, st⟩
    cases o with
    | error e => exact ⟨x, rfl, rfl, rfl⟩
    | ok hr =>
      obtain ⟨header, rest⟩ := hr
      simp only
      rcases s.unget rest with ⟨o, s⟩
      cases o with
      | error e => exact ⟨x, rfl, rfl, rfl⟩
      | ok u => exact applyHeader_over E header S { r with stream := s, headerParsed := true } x

/-- `r` with another stored body. -/
def Req.withBody (r : Req ρ σ F) (x : Option PyStr) : Req ρ σ F := { r with body_ := x }

theorem applyContentType_overB (C : Codecs) (h : MVD Bytes) (S : Settings) (r : Req ρ σ F) (x : Option PyStr) :
    ∃ x', applyContentType C h S (r.withBody x) =
      ((applyContentType C h S r).1, (applyContentType C h S r).2.1,
        (applyContentType C h S r).2.2.withBody x') := by
  unfold applyContentType
  cases h.get? b!"Content-Type" with
  | none => exact ⟨x, rfl⟩
  | some vs =>
    simp only
    cases parseHeader C (vs.getLast?.getD []) with
    | error e => exact ⟨x, rfl⟩
    | ok cp =>
      obtain ⟨ct, params⟩ := cp
      simp only
      cases params.get? b!"charset" with
      | none => exact ⟨x, rfl⟩
      | some v => exact ⟨none, rfl⟩

theorem applyQuery_overB (C : Codecs) (q : Bytes) (h : MVD Bytes) (S : Settings)
    (r : Req ρ σ F) (x : Option PyStr) :
    applyQuery C q h S (r.withBody x) = ((applyQuery C q h S r).1, (applyQuery C q h S r).2.1,
        (applyQuery C q h S r).2.2.withBody x) := by
  unfold applyQuery
  have : (r.withBody x).info = r.info := rfl
  rw [this]
  cases r.info with
  | none => rfl
  | some m =>
    simp only
    split <;> rfl

theorem applyHeader_overB (E : Env ρ σ F) (header : Bytes) (S : Settings) (r : Req ρ σ F) (x : Option PyStr) :
    ∃ x', applyHeader E header S (r.withBody x) =
      ((applyHeader E header S r).1, (applyHeader E header S r).2.1,
        (applyHeader E header S r).2.2.withBody x') := by
  unfold applyHeader
  cases parseRequestHeaders (header ++ b!"\r\n") with
  | error e => exact ⟨x, rfl⟩
  | ok lh =>
    obtain ⟨line, h⟩ := lh
    simp only
    cases parseRequestLine E.up line with
    | error e => exact ⟨x, rfl⟩
    | ok l =>
      simp only
      cases hostText l h with
      | error e => exact ⟨x, rfl⟩
      | ok hh =>
        obtain ⟨host, h⟩ := hh
        simp only
        generalize hr1 : ({ r with scheme := _, host := _, port := _, method := _, path := _,
                                   proto := _ } : Req ρ σ F) = r1
        have e1 : ({ r.withBody x with
            scheme := some (if l.scheme ≠ [] then Py.lower l.scheme else b!"UNKNOWN"),
            host := some (splitDomainPort host).1,
            port := some (portOf l.scheme (splitDomainPort host).2),
            method := some l.method, path := some l.path, proto := some l.proto } : Req ρ σ F)
            = r1.withBody x := by
          rw [← hr1]; rfl
        rw [e1]
        obtain ⟨x', f2⟩ := applyContentType_overB E.C h S r1 x
        rw [f2]
        rcases applyContentType E.C h S r1 with ⟨o, S2, r2⟩
        cases o with
        | error e => exact ⟨x', rfl⟩
        | ok u =>
          simp only
          rw [applyQuery_overB]
          exact ⟨x', rfl⟩

theorem parseRequestHeader_overB (E : Env ρ σ F) (S : Settings) (r : Req ρ σ F) (x : Option PyStr) :
    ∃ x', parseRequestHeader E S (r.withBody x) =
      ((parseRequestHeader E S r).1, (parseRequestHeader E S r).2.1,
        (parseRequestHeader E S r).2.2.withBody x') := by
  unfold parseRequestHeader
  have e1 : (r.withBody x).headerParsed = r.headerParsed := rfl
  have e2 : (r.withBody x).stream = r.stream := rfl
  rw [e1, e2]
  cases r.headerParsed with
  | true => exact ⟨x, rfl⟩
  | false =>
    simp only [Bool.false_eq_true, if_false]
    rcases headerLoop S.maxHeaderSize (r.stream.size + 2) [] false r.stream with ⟨o, s, st⟩
    cases o with
    | error e => exact ⟨x, rfl⟩
    | ok hr =>
      obtain ⟨header, rest⟩ := hr
      simp only
      rcases s.unget rest with ⟨o, s⟩
      cases o with
      | error e => exact ⟨x, rfl⟩
      | ok u => exact applyHeader_overB E header S { r with stream := s, headerParsed := true } x

/-- `r` with another stream. -/
def Req.withStream (r : Req ρ σ F) (x : LazyStream ρ) : Req ρ σ F := { r with stream := x }

theorem applyContentType_overS (C : Codecs) (h : MVD Bytes) (S : Settings) (r : Req ρ σ F) (x : LazyStream ρ) :
    applyContentType C h S (r.withStream x) =
      ((applyContentType C h S r).1, (applyContentType C h S r).2.1,
        (applyContentType C h S r).2.2.withStream x) := by
  unfold applyContentType
  cases h.get? b!"Content-Type" with
  | none => exact rfl
  | some vs =>
    simp only
    cases parseHeader C (vs.getLast?.getD []) with
    | error e => exact rfl
    | ok cp =>
      obtain ⟨ct, params⟩ := cp
      simp only
      cases params.get? b!"charset" with
      | none => exact rfl
      | some v => exact rfl

theorem applyQuery_overS (C : Codecs) (q : Bytes) (h : MVD Bytes) (S : Settings)
    (r : Req ρ σ F) (x : LazyStream ρ) :
    applyQuery C q h S (r.withStream x) = ((applyQuery C q h S r).1, (applyQuery C q h S r).2.1,
        (applyQuery C q h S r).2.2.withStream x) := by
  unfold applyQuery
  have : (r.withStream x).info = r.info := rfl
  rw [this]
  cases r.info with
  | none => rfl
  | some m =>
    simp only
    split <;> rfl

theorem applyHeader_overS (E : Env ρ σ F) (header : Bytes) (S : Settings) (r : Req ρ σ F) (x : LazyStream ρ) :
    applyHeader E header S (r.withStream x) =
      ((applyHeader E header S r).1, (applyHeader E header S r).2.1,
        (applyHeader E header S r).2.2.withStream x) := by
  unfold applyHeader
  cases parseRequestHeaders (header ++ b!"\r\n") with
  | error e => exact rfl
  | ok lh =>
    obtain ⟨line, h⟩ := lh
    simp only
    cases parseRequestLine E.up line with
    | error e => exact rfl
    | ok l =>
      simp only
      cases hostText l h with
      | error e => exact rfl
      | ok hh =>
        obtain ⟨host, h⟩ := hh
        simp only
        generalize hr1 : ({ r with scheme := _, host := _, port := _, method := _, path := _,
                                   proto := _ } : Req ρ σ F) = r1
        have e1 : ({ r.withStream x with
            scheme := some (if l.scheme ≠ [] then Py.lower l.scheme else b!"UNKNOWN"),
            host := some (splitDomainPort host).1,
            port := some (portOf l.scheme (splitDomainPort host).2),
            method := some l.method, path := some l.path, proto := some l.proto } : Req ρ σ F)
            = r1.withStream x := by
          rw [← hr1]; rfl
        rw [e1]
        have f2 := applyContentType_overS E.C h S r1 x
        rw [f2]
        rcases applyContentType E.C h S r1 with ⟨o, S2, r2⟩
        cases o with
        | error e => exact rfl
        | ok u =>
          simp only
          rw [applyQuery_overS]

theorem readBody_over (S : Settings) (r x : Req ρ σ F) :
    readBody S (r.over x) = ((readBody S r).1, (readBody S r).2.over x) := by
  unfold readBody
  have e2 : (r.over x).stream = r.stream := rfl
  rw [e2]
  rcases r.stream.read (some 65536) with ⟨o, s⟩
  cases o with
  | error e => rfl
  | ok c =>
    simp only
    rcases bodyLoop S.dataMaxMemory (s.size + 2) [] c c.length s with ⟨o, s⟩
    cases o <;> rfl

theorem bodyCore_over (S : Settings) (r x : Req ρ σ F) :
    bodyCore S (r.over x) = ((bodyCore S r).1, (bodyCore S r).2.over x) := by
  unfold bodyCore
  have e1 : (r.over x).bodyParsed = r.bodyParsed := rfl
  have e2 : (r.over x).contentType = r.contentType := rfl
  have e3 : (r.over x).body_ = r.body_ := rfl
  rw [e1, e2, e3]
  split
  · rfl
  · split
    · rfl
    · cases r.body_ with
      | none => exact readBody_over S r x
      | some b => rfl

theorem markError_over (C : Codecs) (S : Settings) (e : Exc) (r x : Req ρ σ F) :
    ∃ x', markError C S e (r.over x) = ((markError C S e r).1.over x', (markError C S e r).2) ∧
      x'.post = x.post ∧ x'.files = x.files := by
  unfold markError
  cases queryDict C S none false with
  | error e' => exact ⟨x, rfl, rfl, rfl⟩
  | ok q => exact ⟨{ x with post_ := some (.query q), files_ := some [] }, rfl, rfl, rfl⟩

theorem parseFileUpload_over (E : Env ρ σ F) (S : Settings) (H : HandlerOps ρ σ F)
    (r x : Req ρ σ F) (w : σ) :
    ∃ x', parseFileUpload E S H (r.over x) w = ((parseFileUpload E S H r w).1,
      (parseFileUpload E S H r w).2.1.over x', (parseFileUpload E S H r w).2.2) ∧
      x'.post = x.post ∧ x'.files = x.files := by
  unfold parseFileUpload
  have e1 : (r.over x).info = r.info := rfl
  rw [e1]
  cases r.info.bind (·.headers) with
  | none => exact ⟨x, rfl, rfl, rfl⟩
  | some h =>
    simp only
    rcases (if H.count = 0 then E.load w else (.ok H, w)) with ⟨o, w⟩
    cases o with
    | error e => exact ⟨x, rfl, rfl, rfl⟩
    | ok H =>
      simp only
      cases MultiPart.create E.C H ((h.get? b!"Content-Type").bind List.getLast?)
          ((h.get? b!"Content-Length").bind List.getLast?) with
      | error e => exact ⟨{ x with handlers := some H }, rfl, rfl, rfl⟩
      | ok m =>
        simp only
        have e2 : (r.over x).stream = r.stream := rfl
        rw [e2]
        exact ⟨{ x with handlers := some H }, rfl, rfl, rfl⟩

theorem parseByType_over (E : Env ρ σ F) (S : Settings) (H : HandlerOps ρ σ F)
    (r x : Req ρ σ F) (w : σ) :
    ∃ x', parseByType E S H (r.over x) w = ((parseByType E S H r w).1,
      (parseByType E S H r w).2.1.over x', (parseByType E S H r w).2.2) ∧
      x'.post = x.post ∧ x'.files = x.files ∧
      ((parseByType E S H r w).1 = .ok () → x'.post_ = (parseByType E S H r w).2.1.post_ ∧
        x'.files_ = (parseByType E S H r w).2.1.files_) := by
  unfold parseByType
  have e1 : (r.over x).contentType = r.contentType := rfl
  rw [e1]
  cases r.contentType with
  | none => exact ⟨x, rfl, rfl, rfl, by simp⟩
  | some ct =>
    simp only
    by_cases h1 : ct = some b!"multipart/form-data"
    · rw [if_pos h1, if_pos h1]
      obtain ⟨x', f1, f2, f3⟩ := parseFileUpload_over E S H r x w
      rw [f1]
      rcases parseFileUpload E S H r w with ⟨o, r', w'⟩
      cases o with
      | error e =>
        by_cases he : e = .multiPartParserError
        · subst he
          obtain ⟨x2, g1, g2, g3⟩ := markError_over E.C S .multiPartParserError r' x'
          simp only
          rw [g1]
          exact ⟨x2, rfl, by rw [g2, f2], by rw [g3, f3], by simp⟩
        · refine ⟨x', ?_, f2, f3, ?_⟩
          · cases e <;> first | rfl | exact absurd rfl he
          · cases e <;> first | (intro h; cases h; done) | exact absurd rfl he
      | ok pf =>
        obtain ⟨p, f⟩ := pf
        exact ⟨{ x' with post_ := some (.form p), files_ := some f }, rfl, f2, f3,
          fun _ => ⟨rfl, rfl⟩⟩
    · rw [if_neg h1, if_neg h1]
      by_cases h2 : ct = some b!"application/x-www-form-urlencoded"
      · rw [if_pos h2, if_pos h2, bodyCore_over]
        rcases bodyCore S r with ⟨o, r'⟩
        cases o with
        | error e => exact ⟨x, rfl, rfl, rfl, by simp⟩
        | ok b =>
          simp only
          cases queryDict E.C S (some b) false with
          | error e => exact ⟨x, rfl, rfl, rfl, by simp⟩
          | ok q =>
            exact ⟨{ x with post_ := some (.query q), files_ := some [] }, rfl, rfl, rfl,
              fun _ => ⟨rfl, rfl⟩⟩
      · rw [if_neg h2, if_neg h2]
        cases queryDict E.C S none false with
        | error e => exact ⟨x, rfl, rfl, rfl, by simp⟩
        | ok q =>
          exact ⟨{ x with post_ := some (.query q), files_ := some [] }, rfl, rfl, rfl,
            fun _ => ⟨rfl, rfl⟩⟩

/-! ### What the body parser leaves alone -/

/-- Everything but the stream, the stored body, the new results and the handlers. -/
structure BodyFrame (r r' : Req ρ σ F) : Prop where
  headerParsed : r'.headerParsed = r.headerParsed
  bodyParsed : r'.bodyParsed = r.bodyParsed
  post : r'.post = r.post
  files : r'.files = r.files
  contentType : r'.contentType = r.contentType
  info : r'.info = r.info
  get : r'.get = r.get

theorem BodyFrame.refl (r : Req ρ σ F) : BodyFrame r r := ⟨rfl, rfl, rfl, rfl, rfl, rfl, rfl⟩

theorem BodyFrame.trans {a b c : Req ρ σ F} (h : BodyFrame a b) (g : BodyFrame b c) :
    BodyFrame a c :=
  ⟨g.1.trans h.1, g.2.trans h.2, g.3.trans h.3, g.4.trans h.4, g.5.trans h.5, g.6.trans h.6,
    g.7.trans h.7⟩

theorem readBody_frame (S : Settings) (r : Req ρ σ F) : BodyFrame r (readBody S r).2 := by
  unfold readBody
  rcases r.stream.read (some 65536) with ⟨o, s⟩
  cases o with
  | error e => exact ⟨rfl, rfl, rfl, rfl, rfl, rfl, rfl⟩
  | ok c =>
    simp only
    rcases bodyLoop S.dataMaxMemory (s.size + 2) [] c c.length s with ⟨o, s⟩
    cases o <;> exact ⟨rfl, rfl, rfl, rfl, rfl, rfl, rfl⟩

theorem bodyCore_frame (S : Settings) (r : Req ρ σ F) : BodyFrame r (bodyCore S r).2 := by
  unfold bodyCore
  split
  · exact .refl _
  · split
    · exact .refl _
    · cases r.body_ with
      | none => exact readBody_frame S r
      | some b => exact .refl _

theorem markError_frame (C : Codecs) (S : Settings) (e : Exc) (r : Req ρ σ F) :
    BodyFrame r (markError C S e r).1 := by
  unfold markError
  cases queryDict C S none false <;> exact ⟨rfl, rfl, rfl, rfl, rfl, rfl, rfl⟩

theorem parseFileUpload_frame (E : Env ρ σ F) (S : Settings) (H : HandlerOps ρ σ F)
    (r : Req ρ σ F) (w : σ) : BodyFrame r (parseFileUpload E S H r w).2.1 := by
  unfold parseFileUpload
  cases r.info.bind (·.headers) with
  | none => exact .refl _
  | some h =>
    simp only
    rcases (if H.count = 0 then E.load w else (.ok H, w)) with ⟨o, w⟩
    cases o with
    | error e => exact .refl _
    | ok H =>
      simp only
      cases MultiPart.create E.C H ((h.get? b!"Content-Type").bind List.getLast?)
          ((h.get? b!"Content-Length").bind List.getLast?) <;>
        exact ⟨rfl, rfl, rfl, rfl, rfl, rfl, rfl⟩

theorem parseByType_frame (E : Env ρ σ F) (S : Settings) (H : HandlerOps ρ σ F)
    (r : Req ρ σ F) (w : σ) : BodyFrame r (parseByType E S H r w).2.1 := by
  unfold parseByType
  cases hct : r.contentType with
  | none => exact .refl _
  | some ct =>
    simp only
    by_cases h1 : ct = some b!"multipart/form-data"
    · rw [if_pos h1]
      have f := parseFileUpload_frame E S H r w
      generalize parseFileUpload E S H r w = y at f ⊢
      rcases y with ⟨o, r', w'⟩
      cases o with
      | error e =>
        by_cases he : e = .multiPartParserError
        · subst he
          exact f.trans (markError_frame E.C S .multiPartParserError r')
        · cases e <;> first | exact f | exact absurd rfl he
      | ok pf => exact f.trans ⟨rfl, rfl, rfl, rfl, rfl, rfl, rfl⟩
    · rw [if_neg h1]
      by_cases h2 : ct = some b!"application/x-www-form-urlencoded"
      · rw [if_pos h2]
        have f := bodyCore_frame S r
        generalize bodyCore S r = y at f ⊢
        rcases y with ⟨o, r'⟩
        cases o with
        | error e => exact f
        | ok b =>
          simp only
          cases queryDict E.C S (some b) false with
          | error e => exact f
          | ok q => exact f.trans ⟨rfl, rfl, rfl, rfl, rfl, rfl, rfl⟩
      · rw [if_neg h2]
        cases queryDict E.C S none false with
        | error e => exact .refl _
        | ok q => exact ⟨rfl, rfl, rfl, rfl, hct.symm, rfl, rfl⟩

/-- The end of `parse_request_body` either fails and leaves the results alone or stores all of
them. -/
theorem finishBody_cases (C : Codecs) (S : Settings) (r : Req ρ σ F) :
    (∃ e, (finishBody C S r).1 = .error e ∧ BodyFrame r (finishBody C S r).2 ∧
      (finishBody C S r).2 = (bodyCore S r).2) ∨
    (∃ u, (finishBody C S r) = (.ok (), { (bodyCore S r).2 with
      body_ := some (.u u), bodyParsed := true, post := (bodyCore S r).2.post_,
      files := (bodyCore S r).2.files_ })) := by
  unfold finishBody
  have f := bodyCore_frame S r
  generalize bodyCore S r = y at f ⊢
  rcases y with ⟨o, r'⟩
  cases o with
  | error e => exact .inl ⟨e, rfl, f, rfl⟩
  | ok b =>
    simp only
    cases decodeBody C S b with
    | error e => exact .inl ⟨e, rfl, f, rfl⟩
    | ok u => exact .inr ⟨u, rfl⟩

theorem finishBody_over (C : Codecs) (S : Settings) (r x : Req ρ σ F) (hp : r.bodyParsed = false)
    (h1 : x.post_ = r.post_) (h2 : x.files_ = r.files_) :
    ∃ x', finishBody C S (r.over x) = ((finishBody C S r).1, (finishBody C S r).2.over x') ∧
      ((finishBody C S r).2.bodyParsed = true ∧ (finishBody C S r).1 = .ok () ∧
        x'.post = (finishBody C S r).2.post ∧ x'.files = (finishBody C S r).2.files ∨
      (finishBody C S r).2.bodyParsed = false ∧ x'.post = x.post ∧ x'.files = x.files ∧
        (finishBody C S r).2.post = r.post ∧ (finishBody C S r).2.files = r.files) := by
  unfold finishBody
  have f := bodyCore_frame S r
  have g : (bodyCore S r).2.post_ = r.post_ ∧ (bodyCore S r).2.files_ = r.files_ := by
    unfold bodyCore
    split
    · exact ⟨rfl, rfl⟩
    · split
      · exact ⟨rfl, rfl⟩
      · cases r.body_ with
        | some b => exact ⟨rfl, rfl⟩
        | none =>
          simp only
          unfold readBody
          rcases r.stream.read (some 65536) with ⟨o, s⟩
          cases o with
          | error e => exact ⟨rfl, rfl⟩
          | ok c =>
            simp only
            rcases bodyLoop S.dataMaxMemory (s.size + 2) [] c c.length s with ⟨o, s⟩
            cases o <;> exact ⟨rfl, rfl⟩
  rw [bodyCore_over]
  generalize bodyCore S r = y at f g ⊢
  rcases y with ⟨o, r'⟩
  obtain ⟨g1, g2⟩ := g
  cases o with
  | error e => exact ⟨x, rfl, .inr ⟨f.bodyParsed.trans hp, rfl, rfl, f.post, f.files⟩⟩
  | ok b =>
    simp only
    cases decodeBody C S b with
    | error e => exact ⟨x, rfl, .inr ⟨f.bodyParsed.trans hp, rfl, rfl, f.post, f.files⟩⟩
    | ok u =>
      refine ⟨{ x with post := r'.post_, files := r'.files_ }, ?_, .inl ⟨rfl, rfl, rfl, rfl⟩⟩
      simp only [Req.over]
      simp only at g1 g2
      rw [h1, h2, g1, g2]

/-- The results are stored, equal for both, or left alone in both. -/
def StoredOrKept (r r' x x' : Req ρ σ F) : Prop :=
  r'.bodyParsed = true ∧ x'.post = r'.post ∧ x'.files = r'.files ∨
  r'.bodyParsed = false ∧ x'.post = x.post ∧ x'.files = x.files ∧ r'.post = r.post ∧
    r'.files = r.files

theorem parseBodyStream_over (E : Env ρ σ F) (S : Settings) (H : HandlerOps ρ σ F)
    (r x : Req ρ σ F) (w : σ) (hp : r.bodyParsed = false) :
    ∃ x', parseBodyStream E S H (r.over x) w = ((parseBodyStream E S H r w).1,
      (parseBodyStream E S H r w).2.1.over x', (parseBodyStream E S H r w).2.2) ∧
      StoredOrKept r (parseBodyStream E S H r w).2.1 x x' := by
  unfold parseBodyStream
  have e1 : (r.over x).stream = r.stream := rfl
  rw [e1]
  rcases r.stream.read (some 1) with ⟨o, s⟩
  cases o with
  | error e => exact ⟨x, rfl, .inr ⟨hp, rfl, rfl, rfl, rfl⟩⟩
  | ok data =>
    simp only
    by_cases hd : data = []
    · rw [if_pos hd, if_pos hd]
      cases queryDict E.C S none false with
      | error e => exact ⟨x, rfl, .inr ⟨hp, rfl, rfl, rfl, rfl⟩⟩
      | ok q =>
        exact ⟨{ x with post_ := some (.query q), files_ := some [] }, rfl,
          .inr ⟨hp, rfl, rfl, rfl, rfl⟩⟩
    · rw [if_neg hd, if_neg hd]
      rcases s.unget data with ⟨o, s2⟩
      cases o with
      | error e => exact ⟨x, rfl, .inr ⟨hp, rfl, rfl, rfl, rfl⟩⟩
      | ok u =>
        simp only
        have e2 : ({ r.over x with stream := s2 } : Req ρ σ F) =
          ({ r with stream := s2 } : Req ρ σ F).over x := rfl
        obtain ⟨x1, f1, f2, f3, f4⟩ := parseByType_over E S H { r with stream := s2 } x w
        have f5 := parseByType_frame E S H { r with stream := s2 } w
        rw [e2, f1]
        generalize parseByType E S H { r with stream := s2 } w = y at f4 f5 ⊢
        rcases y with ⟨o, r', w'⟩
        cases o with
        | error e => exact ⟨x1, rfl, .inr ⟨f5.bodyParsed.trans hp, f2, f3, f5.post, f5.files⟩⟩
        | ok u =>
          simp only
          obtain ⟨g1, g2⟩ := f4 rfl
          obtain ⟨x2, k1, k2⟩ := finishBody_over E.C S r' x1 (f5.bodyParsed.trans hp) g1 g2
          rw [k1]
          refine ⟨x2, rfl, ?_⟩
          rcases k2 with ⟨a1, _, a3, a4⟩ | ⟨a1, a2, a3, a4, a5⟩
          · exact .inl ⟨a1, a3, a4⟩
          · exact .inr ⟨a1, a2.trans f2, a3.trans f3, a4.trans f5.post, a5.trans f5.files⟩

theorem parseRequestBody_over (E : Env ρ σ F) (S : Settings) (r x : Req ρ σ F) (w : σ)
    (hp : r.bodyParsed = false) :
    ∃ x', parseRequestBody E S (r.over x) w = ((parseRequestBody E S r w).1,
      (parseRequestBody E S r w).2.1.over x', (parseRequestBody E S r w).2.2) ∧
      StoredOrKept r (parseRequestBody E S r w).2.1 x x' := by
  have key : ∀ q : Req ρ σ F, q.bodyParsed = false → parseRequestBody E S q w =
      match E.load w with
      | (.error e, w) => (.error e, q, w)
      | (.ok H, w) =>
        if q.headerParsed = false then
          (.error (markError E.C S .requestHeaderParse { q with handlers := some H }).2,
            (markError E.C S .requestHeaderParse { q with handlers := some H }).1, w)
        else parseBodyStream E S H { q with handlers := some H } w := by
    intro q hq
    unfold parseRequestBody
    rw [if_neg (by rw [hq]; simp)]
    rcases E.load w with ⟨_ | _, _⟩ <;> rfl
  rw [key r hp, key (r.over x) hp]
  clear key
  rcases E.load w with ⟨o, w⟩
  cases o with
  | error e => exact ⟨x, rfl, .inr ⟨hp, rfl, rfl, rfl, rfl⟩⟩
  | ok H =>
    simp only
    have e3 : ({ r.over x with handlers := some H } : Req ρ σ F) =
      ({ r with handlers := some H } : Req ρ σ F).over { x with handlers := some H } := rfl
    have e2 : (r.over x).headerParsed = r.headerParsed := rfl
    rw [e3, e2]
    by_cases hh : r.headerParsed = false
    · rw [if_pos hh, if_pos hh]
      obtain ⟨x', f1, f2, f3⟩ := markError_over E.C S .requestHeaderParse
        { r with handlers := some H } { x with handlers := some H }
      have f := markError_frame E.C S .requestHeaderParse { r with handlers := some H }
      rw [f1]
      exact ⟨x', rfl, .inr ⟨f.bodyParsed.trans hp, f2, f3, f.post, f.files⟩⟩
    · rw [if_neg hh, if_neg hh]
      exact parseBodyStream_over E S H { r with handlers := some H } { x with handlers := some H } w
        hp

theorem parseRequestHeader_frame (E : Env ρ σ F) (S : Settings) (r : Req ρ σ F) :
    (parseRequestHeader E S r).2.2.bodyParsed = r.bodyParsed ∧
    (parseRequestHeader E S r).2.2.post = r.post ∧ (parseRequestHeader E S r).2.2.files = r.files ∧
    ((parseRequestHeader E S r).2.2.body_ = r.body_ ∨ (parseRequestHeader E S r).2.2.body_ = none) ∧
    SameButCharset S (parseRequestHeader E S r).2.1 := by
  unfold parseRequestHeader
  cases r.headerParsed with
  | true => exact ⟨rfl, rfl, rfl, .inl rfl, rfl⟩
  | false =>
    simp only [Bool.false_eq_true, if_false]
    rcases headerLoop S.maxHeaderSize (r.stream.size + 2) [] false r.stream with ⟨o, s, st⟩
    cases o with
    | error e => exact ⟨rfl, rfl, rfl, .inl rfl, rfl⟩
    | ok hr =>
      obtain ⟨header, rest⟩ := hr
      simp only
      rcases s.unget rest with ⟨o, s⟩
      cases o with
      | error e => exact ⟨rfl, rfl, rfl, .inl rfl, rfl⟩
      | ok u =>
        obtain ⟨f, g⟩ := applyHeader_frame E header S { r with stream := s, headerParsed := true }
        exact ⟨f.bodyParsed, f.post, f.files, f.body_, g⟩

theorem parseRequest_over (E : Env ρ σ F) (S : Settings) (r x : Req ρ σ F) (w : σ)
    (hp : r.bodyParsed = false) :
    ∃ x', parseRequest E S (r.over x) w = ((parseRequest E S r w).1, (parseRequest E S r w).2.1,
      (parseRequest E S r w).2.2.1.over x', (parseRequest E S r w).2.2.2) ∧
      StoredOrKept r (parseRequest E S r w).2.2.1 x x' := by
  unfold parseRequest
  obtain ⟨x1, f1, f2, f3⟩ := parseRequestHeader_over E S r x
  obtain ⟨g1, g2, g3, _, _⟩ := parseRequestHeader_frame E S r
  rw [f1]
  generalize parseRequestHeader E S r = y at g1 g2 g3 ⊢
  rcases y with ⟨o, S', r'⟩
  cases o with
  | error e => exact ⟨x1, rfl, .inr ⟨g1.trans hp, f2, f3, g2, g3⟩⟩
  | ok u =>
    simp only
    obtain ⟨x2, k1, k2⟩ := parseRequestBody_over E S' r' x1 w (g1.trans hp)
    rw [k1]
    refine ⟨x2, rfl, ?_⟩
    rcases k2 with ⟨a1, a3, a4⟩ | ⟨a1, a2, a3, a4, a5⟩
    · exact .inl ⟨a1, a3, a4⟩
    · exact .inr ⟨a1, a2.trans f2, a3.trans f3, a4.trans g2, a5.trans g3⟩

/-! ### The first empty line -/

open Spec in
theorem firstEnd_iff {input head body : Bytes} :
    FirstEnd input head body ↔ ∃ i, Py.find b!"\r\n\r\n" input = some i ∧ head = input.take i ∧
      body = input.drop (i + 4) := by
  constructor
  · rintro ⟨rfl, h⟩
    refine ⟨head.length, ?_, by simp, ?_⟩
    · apply Py.find_of_decomp
      rintro j hj ⟨t, ht⟩
      have := h ((head ++ b!"\r\n\r\n" ++ body).take j) t (by
        rw [List.append_assoc _ _ t, ht, List.take_append_drop])
      simp at this
      omega
    · have : head.length + 4 = (head ++ b!"\r\n\r\n").length := by simp
      rw [this, List.drop_left]
  · rintro ⟨i, h, rfl, rfl⟩
    refine ⟨Py.find_decomp h, ?_⟩
    rintro a b rfl
    obtain ⟨h1, h2, h3⟩ := Py.find_some.1 h
    by_contra hlt
    refine h3 a.length ?_ ⟨b, ?_⟩
    · simp at hlt h1
      omega
    · rw [List.append_assoc, List.drop_left]

open Spec in
theorem noEnd_iff {input : Bytes} :
    NoEnd input ↔ Py.find b!"\r\n\r\n" input = none := by
  rw [Py.find_none_iff_not_infix]
  constructor
  · rintro h ⟨a, b, e⟩
    exact h a b e.symm
  · rintro h a b e
    exact h ⟨a, b, e.symm⟩

/-- Without a positive `MAX_HEADER_SIZE` nothing is read. -/
theorem parseRequestHeader_nonpos {L : Lawful ρ} {k : Nat} (hk : k ≤ 39) (E : Env ρ σ F)
    (S : Settings) (hS : S.maxHeaderSize ≤ 0) (r : Req ρ σ F) (hr : r.headerParsed = false)
    (hs : SK L k r.stream) :
    ∃ e s', parseRequestHeader E S r =
      (.error e, S, { r with stream := s', headerParsed := decide (S.maxHeaderSize = 0) }) ∧
      SK L k s' ∧ L.sc s' = L.sc r.stream := by
  unfold parseRequestHeader
  rw [if_neg (by rw [hr]; simp)]
  unfold headerLoop
  by_cases h0 : S.maxHeaderSize = 0
  · obtain ⟨s1, e, hs1, c1, z1⟩ := hs.read hk 0
    have e' : r.stream.read (some 0) = (.ok ((L.sc r.stream).take 0), s1) := e
    rw [h0, e']
    simp only [List.take_zero, if_true]
    exact ⟨_, s1, rfl, hs1, c1⟩
  · have : r.stream.read (some S.maxHeaderSize) = (.error .assertionError, r.stream) := by
      unfold LazyStream.read
      simp only
      rw [if_pos (by omega)]
    rw [this]
    refine ⟨.assertionError, r.stream, ?_, hs, rfl⟩
    simp [h0]

end Verif
