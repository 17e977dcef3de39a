import Verif.Props.TextBoundary
import Verif.Props.QueryText
import Verif.Props.WrittenType
/-!
# Header parameters in the extended notation (C106, C32)

`name*=charset'lang'value`: the value is percent-encoded bytes in the charset, and the result is a
`unicode` object.
-/

namespace Verif
open Spec

namespace Spec

/-- What an extended value stands for: the characters themselves when nothing is escaped, otherwise the
escaped bytes read with the charset. -/
inductive ExtValue (C : Codecs) (cs v : Bytes) : UStr → Prop where
  | plain : 37 ∉ v → ExtValue C cs v (v.map UInt8.toNat)
  | coded {b u} : 37 ∈ v → Percent v b → C.decodeReplace cs b = .ok u → ExtValue C cs v u

/-- `text` is a media type with parameters of both kinds, e.g.
`multipart/form-data; charset=utf-8; boundary*=utf-8'en'x%20y`. -/
inductive ExtMedia (C : Codecs) (type : Bytes) : List (Bytes × PyStr) → Bytes → Prop where
  | nil : ExtMedia C type [] type
  | plain {ps s n v t} : ExtMedia C type ps s → (n ≠ [] ∧ ∀ c ∈ n, Visible c ∧ c ∉ b!"=;\"*'") →
      (∀ c ∈ v, c ∉ b!";\"\\") → ParamText n v t → ExtMedia C type (ps ++ [(n, .b v)]) (s ++ b!"; " ++ t)
  | ext {ps s n cs lang v u} : ExtMedia C type ps s → (∀ c ∈ n, Visible c ∧ c ∉ b!"=;\"*'") →
      (∀ c ∈ cs ++ lang ++ v, Visible c ∧ c ∉ b!";\"'") → ExtValue C cs v u → u.head? ≠ some 34 →
      ExtMedia C type (ps ++ [(n, .u u)]) (s ++ b!"; " ++ (n ++ b!"*=" ++ cs ++ b!"'" ++ lang ++ b!"'" ++ v))

/-- The value of a parameter: the last one with this name, without case. -/
def extParam (ps : List (Bytes × PyStr)) (n : Bytes) : Option PyStr :=
  ((ps.map (fun p => (Py.lower p.1, p.2))).reverse.find? (fun p => p.1 = n)).map Prod.snd

end Spec

theorem splitQuote_one {x : Bytes} (h : 39 ∉ x) : Py.splitChar 39 x = [x] := by
  induction x with
  | nil => rfl
  | cons c t ih =>
    simp only [List.mem_cons, not_or] at h
    rw [Py.splitChar, if_neg (fun e => h.1 e.symm), ih h.2]

theorem splitQuote_cons {x r : Bytes} (h : 39 ∉ x) : Py.splitChar 39 (x ++ 39 :: r) = x :: Py.splitChar 39 r := by
  induction x with
  | nil => simp [Py.splitChar]
  | cons c t ih =>
    simp only [List.mem_cons, not_or] at h
    rw [List.cons_append, Py.splitChar, if_neg (fun e => h.1 e.symm), ih h.2]

theorem unquoteAscii_ext {C : Codecs} {cs v : Bytes} {u : UStr} (h : ExtValue C cs v u) : unquoteAscii C v cs = .ok u := by
  unfold unquoteAscii
  cases h with
  | plain h => rw [if_neg h]; rfl
  | coded h hp hd => rw [if_pos h, unquoteToBytes_percent hp, hd]

/-- How a parameter in the extended notation is read. -/
theorem parseParam_any (C : Codecs) {n cs lang v : Bytes} (hn : ∀ c ∈ n, Visible c ∧ c ∉ b!"=;\"*'")
    (hv : ∀ c ∈ cs ++ lang ++ v, Visible c ∧ c ∉ b!";\"'") :
    parseParam C (Py.strip (b!" " ++ (n ++ b!"*=" ++ cs ++ b!"'" ++ lang ++ b!"'" ++ v))) =
      (match unquoteAscii C v cs with
        | .error e => .error e
        | .ok u => .ok (some (Py.lower n, .u (unquoteValue 34 92 u)))) := by
  have hcs : ∀ c ∈ cs, Visible c ∧ c ∉ b!";\"'" := fun c hc => hv c (by simp [hc])
  have hlang : ∀ c ∈ lang, Visible c ∧ c ∉ b!";\"'" := fun c hc => hv c (by simp [hc])
  have hvv : ∀ c ∈ v, Visible c ∧ c ∉ b!";\"'" := fun c hc => hv c (by simp [hc])
  have hval : ∀ c ∈ cs ++ 39 :: (lang ++ 39 :: v), Visible c := by
    intro c hc
    simp only [List.mem_append, List.mem_cons] at hc
    rcases hc with h | rfl | h | rfl | h
    · exact (hcs c h).1
    · exact by unfold Visible; decide
    · exact (hlang c h).1
    · exact by unfold Visible; decide
    · exact (hvv c h).1
  have hnn : ∀ c ∈ n ++ [42], Visible c := by
    intro c hc
    simp only [List.mem_append, List.mem_singleton] at hc
    rcases hc with h | rfl
    · exact (hn c h).1
    · exact by unfold Visible; decide
  have e : Py.strip (b!" " ++ (n ++ b!"*=" ++ cs ++ b!"'" ++ lang ++ b!"'" ++ v)) =
      (n ++ [42]) ++ 61 :: (cs ++ 39 :: (lang ++ 39 :: v)) := by
    have := strip_pad (l := b!" ") (v := (n ++ [42]) ++ 61 :: (cs ++ 39 :: (lang ++ 39 :: v))) (r := []) (by decide) (by
      intro c hc
      have hm : c ∈ n ++ [42] ∨ c = 61 ∨ c ∈ cs ++ 39 :: (lang ++ 39 :: v) := by
        have : c ∈ (n ++ [42]) ++ 61 :: (cs ++ 39 :: (lang ++ 39 :: v)) := by
          rcases hc with h | h
          · exact List.mem_of_head? h
          · exact List.mem_of_getLast? h
        rw [List.mem_append, List.mem_cons] at this
        exact this
      rcases hm with h | rfl | h
      · exact visible_not_space (hnn c h)
      · rfl
      · exact visible_not_space (hval c h))
    simpa using this
  rw [e]
  have hno : 61 ∉ n ++ [42] := by
    simp only [List.mem_append, not_or]
    exact ⟨fun hc => (hn _ hc).2 (by decide), by decide⟩
  have hs : Py.strip (n ++ [42]) = n ++ [42] :=
    stripBy_id (fun c hc => visible_not_space (hnn c (List.mem_of_head? hc)))
      (fun c hc => visible_not_space (hnn c (List.mem_of_getLast? hc)))
  have hsv : Py.strip (cs ++ 39 :: (lang ++ 39 :: v)) = cs ++ 39 :: (lang ++ 39 :: v) :=
    stripBy_id (fun c hc => visible_not_space (hval c (List.mem_of_head? hc)))
      (fun c hc => visible_not_space (hval c (List.mem_of_getLast? hc)))
  have hl : Py.lower (n ++ [42]) = Py.lower n ++ [42] := by simp [Py.lower]; decide
  have ha : Py.isAscii (Py.lower (n ++ [42])) = true := by
    rw [lower_ascii]
    unfold Py.isAscii
    simp only [List.all_eq_true, decide_eq_true_eq]
    exact fun c hc => visible_ascii (hnn c hc)
  have he : Py.endsWith b!"*" (Py.lower n ++ [42]) = true := by
    unfold Py.endsWith
    rw [List.isSuffixOf_iff_suffix]
    exact ⟨_, rfl⟩
  have h39 : ∀ {x : Bytes}, (∀ c ∈ x, Visible c ∧ c ∉ b!";\"'") → 39 ∉ x := fun h hc => (h _ hc).2 (by decide)
  have hcount : Py.countChar 39 ((n ++ [42]) ++ 61 :: (cs ++ 39 :: (lang ++ 39 :: v))) = 2 := by
    have z : ∀ {x : Bytes}, 39 ∉ x → x.filter (fun c => decide (c = 39)) = [] := by
      intro x hx
      rw [List.filter_eq_nil_iff]
      intro c hc
      simp only [decide_eq_true_eq]
      rintro rfl
      exact hx hc
    unfold Py.countChar
    simp [List.filter_append, List.filter_cons, z (h39 hcs), z (h39 hlang), z (h39 hvv),
      z (x := n) (fun hc => (hn _ hc).2 (by decide))]
  have hsplit : Py.splitChar 39 (cs ++ 39 :: (lang ++ 39 :: v)) = [cs, lang, v] := by
    rw [splitQuote_cons (h39 hcs), splitQuote_cons (h39 hlang), splitQuote_one (h39 hvv)]
  have hva : Py.isAscii v = true := (isAscii_iff v).2 (fun c hc => visible_ascii (hvv c hc).1)
  have hca : Py.isAscii cs = true := (isAscii_iff cs).2 (fun c hc => visible_ascii (hcs c hc).1)
  unfold parseParam
  rw [splitFirst_append hno]
  simp only [hs, ha, hsv, hcount, hsplit, hva, hca, Bool.true_eq_false, if_false]
  rw [hl, he]
  simp
  cases unquoteAscii C v cs <;> rfl

/-- A parameter in the extended notation gives the text. -/
theorem parseParam_ext (C : Codecs) {n cs lang v : Bytes} {u : UStr} (hn : ∀ c ∈ n, Visible c ∧ c ∉ b!"=;\"*'")
    (hv : ∀ c ∈ cs ++ lang ++ v, Visible c ∧ c ∉ b!";\"'") (hu : ExtValue C cs v u) (hq : u.head? ≠ some 34) :
    parseParam C (Py.strip (b!" " ++ (n ++ b!"*=" ++ cs ++ b!"'" ++ lang ++ b!"'" ++ v))) =
      .ok (some (Py.lower n, .u u)) := by
  rw [parseParam_any C hn hv, unquoteAscii_ext hu]
  simp only [unquoteValue, if_neg (fun h : u.length ≥ 2 ∧ u.head? = some 34 ∧ u.getLast? = some 34 => hq h.2.1)]

theorem extParam_plain {n cs lang v : Bytes} (hn : ∀ c ∈ n, Visible c ∧ c ∉ b!"=;\"*'")
    (hv : ∀ c ∈ cs ++ lang ++ v, Visible c ∧ c ∉ b!";\"'") :
    ∀ q : UInt8, q ∈ b!";\"" → q ∉ b!" " ++ (n ++ b!"*=" ++ cs ++ b!"'" ++ lang ++ b!"'" ++ v) := by
    intro q hq hc
    simp only [List.mem_append] at hc
    have hv' : ∀ c, c ∈ cs ∨ c ∈ lang ∨ c ∈ v → c ∉ b!";\"" := by
      intro c hc hm
      have := (hv c (by simpa [List.mem_append, or_assoc] using hc)).2
      have h2 : c = 59 ∨ c = 34 := by simpa using hm
      rcases h2 with rfl | rfl
      · exact this (by decide)
      · exact this (by decide)
    rcases hc with hc | (((((hc | hc) | hc) | hc) | hc) | hc) | hc
    · revert hc hq; revert q; decide +kernel
    · have := (hn q hc).2
      have h2 : q = 59 ∨ q = 34 := by simpa using hq
      rcases h2 with rfl | rfl
      · exact this (by decide)
      · exact this (by decide)
    · revert hc hq; revert q; decide +kernel
    · exact hv' q (.inl hc) hq
    · revert hc hq; revert q; decide +kernel
    · exact hv' q (.inr (.inl hc)) hq
    · revert hc hq; revert q; decide +kernel
    · exact hv' q (.inr (.inr hc)) hq

theorem extMedia_split {C : Codecs} {type s : Bytes} {ps : List (Bytes × PyStr)} (ht : 34 ∉ type ∧ 59 ∉ type)
    (h : ExtMedia C type ps s) :
    ∃ raws, SplitSemis s (type :: raws) ∧ (∀ r ∈ raws, quotes r % 2 = 0) ∧
      parseParams C (raws.map Py.strip) [] =
        .ok ((ps.map (fun p => (Py.lower p.1, p.2))).foldl (fun (d : Dict Bytes PyStr) p => d.set p.1 p.2) []) := by
  have step : ∀ {ps : List (Bytes × PyStr)} {s n t : Bytes} {v : PyStr},
      (∃ raws, SplitSemis s (type :: raws) ∧ (∀ r ∈ raws, quotes r % 2 = 0) ∧
        parseParams C (raws.map Py.strip) [] =
          .ok ((ps.map (fun p => (Py.lower p.1, p.2))).foldl (fun (d : Dict Bytes PyStr) p => d.set p.1 p.2) [])) →
      quotes (b!" " ++ t) % 2 = 0 → (59 : UInt8) ∉ b!" " ++ t →
      parseParam C (Py.strip (b!" " ++ t)) = .ok (some (Py.lower n, v)) →
      ∃ raws, SplitSemis (s ++ b!"; " ++ t) (type :: raws) ∧ (∀ r ∈ raws, quotes r % 2 = 0) ∧
        parseParams C (raws.map Py.strip) [] =
          .ok (((ps ++ [(n, v)]).map (fun p => (Py.lower p.1, p.2))).foldl
            (fun (d : Dict Bytes PyStr) p => d.set p.1 p.2) []) := by
    rintro ps s n t v ⟨raws, hS, hq, h1⟩ hquot hsemi hp
    refine ⟨raws ++ [b!" " ++ t], ⟨by simp, ?_, ?_, ?_⟩, ?_, ?_⟩
    · rw [← List.cons_append, joinSemi_snoc _ _ (by simp), ← hS.join]
      simp
    · intro r hr a b hab
      rw [← List.cons_append, List.mem_append] at hr
      rcases hr with hr | hr
      · exact hS.inner r hr a b hab
      · simp only [List.mem_singleton] at hr
        subst hr
        exact absurd (by rw [hab]; simp) hsemi
    · intro r hr
      rw [← List.cons_append, List.dropLast_concat] at hr
      rcases List.mem_cons.1 hr with rfl | hr
      · simp [quotes, List.count_eq_zero.2 ht.1]
      · exact hq r hr
    · intro r hr
      rcases List.mem_append.1 hr with hr | hr
      · exact hq r hr
      · simp only [List.mem_singleton] at hr
        subst hr; exact hquot
    · rw [List.map_append, List.map_singleton, parseParams_snoc C _ _ _ _ _ _ h1 hp]
      simp [List.foldl_append]
  induction h with
  | nil =>
    refine ⟨[], ⟨by simp, rfl, ?_, by simp⟩, by simp, rfl⟩
    intro r hr a b hab
    simp at hr
    subst hr
    exact absurd (by rw [hab]; simp) ht.2
  | @plain ps s n v t _ hn hv hp ih =>
    refine step ih ?_ ?_ (parseParam_text C hn hv hp)
    · have hn0 : quotes n = 0 := List.count_eq_zero.2 (fun hm => (hn.2 34 hm).2 (by decide))
      have hv0 : quotes v = 0 := List.count_eq_zero.2 (fun hm => hv 34 hm (by decide))
      unfold quotes at hn0 hv0 ⊢
      rcases hp with ⟨_, rfl⟩ | rfl
      · simp [List.count_append, hn0, hv0]
      · simp [List.count_append, hn0, hv0]
    · have hn0 : (59 : UInt8) ∉ n := fun hm => (hn.2 59 hm).2 (by decide)
      have hv0 : (59 : UInt8) ∉ v := fun hm => hv 59 hm (by decide)
      rcases hp with ⟨_, rfl⟩ | rfl <;> simp [hn0, hv0]
  | @ext ps s n cs lang v u _ hn hv hu hq ih =>
    have none := extParam_plain hn hv
    refine step ih ?_ (none 59 (by decide)) (parseParam_ext C hn hv hu hq)
    rw [show quotes _ = 0 from List.count_eq_zero.2 (none 34 (by decide))]

theorem foldl_set_getAny (ps : List (Bytes × PyStr)) (n : Bytes) : ∀ (d : Dict Bytes PyStr),
    (ps.foldl (fun d p => d.set p.1 p.2) d).get? n =
      ((ps.reverse.find? (fun p => p.1 = n)).map Prod.snd).or (d.get? n) := by
  induction ps using List.reverseRecOn with
  | nil => intro d; simp
  | append_singleton ps p ih =>
    intro d
    rw [List.foldl_append, List.foldl_cons, List.foldl_nil, Dict.get?_set, ih d]
    simp only [List.reverse_append, List.reverse_cons, List.reverse_nil, List.nil_append, List.singleton_append,
      List.find?_cons]
    by_cases h : p.1 = n
    · simp [h]
    · simp [h, eq_comm]

/-- A media type whose parameters are written in either notation is read as written. -/
theorem parseHeader_ext (C : Codecs) {type s : Bytes} {ps : List (Bytes × PyStr)}
    (ht : 34 ∉ type ∧ 59 ∉ type ∧ ∀ c ∈ type, c < 128) (h : ExtMedia C type ps s) :
    ∃ d, parseHeader C s = .ok (Py.lower (Py.strip type), d) ∧ ∀ n, d.get? n = extParam ps n := by
  obtain ⟨raws, hS, _, h1⟩ := extMedia_split ⟨ht.1, ht.2.1⟩ h
  have ha : Py.isAscii (Py.lower (Py.strip type)) = true := by
    rw [lower_ascii]
    unfold Py.isAscii
    simp only [List.all_eq_true, decide_eq_true_eq]
    intro c hc
    exact ht.2.2 c (strip_subset _ c hc)
  refine ⟨(ps.map (fun p => (Py.lower p.1, p.2))).foldl (fun (d : Dict Bytes PyStr) p => d.set p.1 p.2) [], ?_,
    fun n => ?_⟩
  · rw [parseHeader_of_split C hS, h1, if_neg (by simp [ha])]
  · rw [foldl_set_getAny]
    simp [extParam, Dict.get?]

theorem extMedia_prefix {C : Codecs} {type : Bytes} {ps : List (Bytes × PyStr)} {s : Bytes} (h : ExtMedia C type ps s) :
    type <+: s := by
  induction h with
  | nil => exact List.prefix_refl _
  | plain _ _ _ _ ih => exact ih.trans (by rw [List.append_assoc]; exact List.prefix_append _ _)
  | ext _ _ _ _ _ ih => exact ih.trans (by rw [List.append_assoc]; exact List.prefix_append _ _)

section
variable {ρ σ F : Type} [Producer ρ] {L : Lawful ρ}

omit [Producer ρ] in
/-- **C106, C32**: a content type whose `boundary` parameter is written in either notation, the boundary being usable:
the parser is for this very boundary, and the boundary is a `unicode` object exactly if the (last) parameter is in the
extended notation. -/
theorem C106_notation_partial (C : Codecs) (H : HandlerOps ρ σ F) {type ct : Bytes} {ps : List (Bytes × PyStr)}
    (ht : b!"multipart/" <+: type) (hv : ∀ c ∈ type, Visible c ∧ c ∉ b!";\"") (h : ExtMedia C type ps ct)
    (ha : ∀ c ∈ ct, c < 128) {b : PyStr} (hb : extParam ps b!"boundary" = some b) (cl : Option Bytes)
    (hn : 0 ≤ lengthOf cl) :
    (∀ u, b = .u u → BoundaryOk u → unicodeBoundary C (some ct) = true ∧
      MultiPart.create C H (some ct) cl = .ok ⟨u.map UInt8.ofNat, chunkSizeOf H, (lengthOf cl).toNat⟩) ∧
    (∀ v, b = .b v → BoundaryOk (v.map UInt8.toNat) → unicodeBoundary C (some ct) = false ∧
      MultiPart.create C H (some ct) cl = .ok ⟨v, chunkSizeOf H, (lengthOf cl).toNat⟩) := by
  have h1 : Py.startsWith b!"multipart/" ct = true := by
    unfold Py.startsWith
    exact List.isPrefixOf_iff_prefix.2 (ht.trans (extMedia_prefix h))
  have h2 : Py.isAscii ct = true := (isAscii_iff ct).2 ha
  obtain ⟨d, h3, h4⟩ := parseHeader_ext C ⟨fun hc => (hv _ hc).2 (by decide), fun hc => (hv _ hc).2 (by decide),
    fun c hc => ha c ((extMedia_prefix h).subset hc)⟩ h
  have h5 := (h4 b!"boundary").trans hb
  have hne : ∀ {t : List Nat}, BoundaryOk t → t ≠ [] := by
    rintro t ⟨t', c, e | e, _⟩ <;> simp [e]
  refine ⟨fun u e hk => ⟨?_, ?_⟩, fun v e hk => ⟨?_, ?_⟩⟩
  · subst e
    unfold unicodeBoundary
    simp only [Option.getD_some, h3, h5]
  · subst e
    exact (create_ok_iff C H (some ct) cl _).2 ⟨_, d, _, h1, h2, h3, h5, hne hk, (validBoundary_iff _).2 hk, hn, rfl⟩
  · subst e
    unfold unicodeBoundary
    simp only [Option.getD_some, h3, h5]
  · subst e
    refine (create_ok_iff C H (some ct) cl _).2 ⟨_, d, _, h1, h2, h3, h5, hne hk, (validBoundary_iff _).2 hk, hn, ?_⟩
    exact congrArg (fun b => (⟨b, chunkSizeOf H, (lengthOf cl).toNat⟩ : MultiPart)) (toU_ofNat v).symm

theorem parseParams_error (C : Codecs) (e : Exc) : ∀ (ps : List Bytes) (q : Bytes) (d d' : Dict Bytes PyStr),
    parseParams C ps d = .ok d' → parseParam C q = .error e → parseParams C (ps ++ [q]) d = .error e
  | [], q, d, d', h, hq => by
    simp [parseParams, hq]
  | p :: ps, q, d, d', h, hq => by
    simp only [parseParams, List.cons_append] at h ⊢
    split at h
    · cases h
    · exact parseParams_error C e ps q _ _ h hq
    · exact parseParams_error C e ps q _ _ h hq

omit [Producer ρ] in
/-- **C32 is false**: any parameter of the content type in the extended notation whose value has an escape and whose
charset is not known makes the constructor raise what decoding raises (`LookupError` with the codecs of Python), not
`MultiPartParserError`; the boundary need not be concerned. -/
theorem C32_charset_refuted (C : Codecs) (H : HandlerOps ρ σ F) {type s : Bytes} {ps : List (Bytes × PyStr)}
    (ht : b!"multipart/" <+: type) (hv : ∀ c ∈ type, Visible c ∧ c ∉ b!";\"") (h : ExtMedia C type ps s)
    (ha : ∀ c ∈ s, c < 128) {n cs lang v b : Bytes} (hn : ∀ c ∈ n, Visible c ∧ c ∉ b!"=;\"*'")
    (hx : ∀ c ∈ cs ++ lang ++ v, Visible c ∧ c ∉ b!";\"'") (hp : 37 ∈ v) (hb : Percent v b) {e : Exc}
    (he : C.decodeReplace cs b = .error e) (cl : Option Bytes) :
    MultiPart.create C H (some (s ++ b!"; " ++ (n ++ b!"*=" ++ cs ++ b!"'" ++ lang ++ b!"'" ++ v))) cl = .error e := by
  have hparam : parseParam C (Py.strip (b!" " ++ (n ++ b!"*=" ++ cs ++ b!"'" ++ lang ++ b!"'" ++ v))) = .error e := by
    rw [parseParam_any C hn hx]
    unfold unquoteAscii
    rw [if_pos hp, unquoteToBytes_percent hb, he]
  obtain ⟨raws, hS, hq, h1⟩ := extMedia_split ⟨fun hc => (hv _ hc).2 (by decide), fun hc => (hv _ hc).2 (by decide)⟩ h
  have hsplit : SplitSemis (s ++ b!"; " ++ (n ++ b!"*=" ++ cs ++ b!"'" ++ lang ++ b!"'" ++ v))
      (type :: (raws ++ [b!" " ++ (n ++ b!"*=" ++ cs ++ b!"'" ++ lang ++ b!"'" ++ v)])) := by
    refine ⟨by simp, ?_, ?_, ?_⟩
    · rw [← List.cons_append, joinSemi_snoc _ _ (by simp), ← hS.join]
      simp
    · intro r hr a b hab
      rw [← List.cons_append, List.mem_append] at hr
      rcases hr with hr | hr
      · exact hS.inner r hr a b hab
      · simp only [List.mem_singleton] at hr
        subst hr
        exact absurd (by rw [hab]; simp) (extParam_plain hn hx 59 (by decide))
    · intro r hr
      rw [← List.cons_append, List.dropLast_concat] at hr
      rcases List.mem_cons.1 hr with rfl | hr
      · simp [quotes, List.count_eq_zero.2 (show 34 ∉ r from fun hc => (hv _ hc).2 (by decide))]
      · exact hq r hr
  have hpre := extMedia_prefix h
  generalize hct : s ++ b!"; " ++ (n ++ b!"*=" ++ cs ++ b!"'" ++ lang ++ b!"'" ++ v) = ct at hsplit
  have h2 : Py.startsWith b!"multipart/" ct = true := by
    unfold Py.startsWith
    refine List.isPrefixOf_iff_prefix.2 ((ht.trans hpre).trans ?_)
    rw [← hct, List.append_assoc]
    exact List.prefix_append _ _
  have h3 : Py.isAscii ct = true := by
    refine (isAscii_iff ct).2 (fun c hc => ?_)
    rw [← hct] at hc
    simp only [List.mem_append] at hc
    have hx' : ∀ c, c ∈ cs ∨ c ∈ lang ∨ c ∈ v → c < 128 := fun c hc =>
      visible_ascii (hx c (by simpa [List.mem_append, or_assoc] using hc)).1
    rcases hc with (hc | hc) | (((((hc | hc) | hc) | hc) | hc) | hc) | hc
    · exact ha c hc
    · revert hc; revert c; decide
    · exact visible_ascii (hn c hc).1
    · revert hc; revert c; decide
    · exact hx' c (.inl hc)
    · revert hc; revert c; decide
    · exact hx' c (.inr (.inl hc))
    · revert hc; revert c; decide
    · exact hx' c (.inr (.inr hc))
  have h4 : Py.isAscii (Py.lower (Py.strip type)) = true := by
    rw [lower_ascii]
    exact (isAscii_iff _).2 (fun c hc => ha c (hpre.subset (strip_subset _ c hc)))
  have h5 : parseHeader C ct = .error e := by
    rw [parseHeader_of_split C hsplit, if_neg (by simp [h4]), List.map_append, List.map_singleton,
      parseParams_error C e _ _ _ _ h1 hparam]
  unfold MultiPart.create
  simp only [Option.getD_some, h2, h3, h5, Bool.true_eq_false, if_false]

omit [Producer ρ] in
/-- With the codecs of Python: a charset other than the ones known (here UTF-8, ASCII and ISO-8859-1 under their names)
gives `LookupError`. -/
theorem C32_lookup_refuted (H : HandlerOps ρ σ F) {type s : Bytes} {ps : List (Bytes × PyStr)}
    (ht : b!"multipart/" <+: type) (hv : ∀ c ∈ type, Visible c ∧ c ∉ b!";\"") (h : ExtMedia pyCodecs type ps s)
    (ha : ∀ c ∈ s, c < 128) {n cs lang v b : Bytes} (hn : ∀ c ∈ n, Visible c ∧ c ∉ b!"=;\"*'")
    (hx : ∀ c ∈ cs ++ lang ++ v, Visible c ∧ c ∉ b!";\"'") (hp : 37 ∈ v) (hb : Percent v b)
    (hcs : (Py.lower cs).map (fun c => if c = 95 then 45 else c) ∉ [b!"utf-8", b!"utf8", b!"ascii", b!"us-ascii",
      b!"iso-8859-1", b!"iso8859-1", b!"latin-1", b!"latin1"]) (cl : Option Bytes) :
    MultiPart.create pyCodecs H (some (s ++ b!"; " ++ (n ++ b!"*=" ++ cs ++ b!"'" ++ lang ++ b!"'" ++ v))) cl =
      .error .lookupError := by
  refine C32_charset_refuted pyCodecs H ht hv h ha hn hx hp hb ?_ cl
  have : lookupEnc cs = none := by
    unfold lookupEnc
    simp only [List.mem_cons, not_or] at hcs
    simp only [List.mem_cons, List.not_mem_nil, or_false]
    rw [if_neg (by rintro (h | h); exact hcs.1 h; exact hcs.2.1 h),
      if_neg (by rintro (h | h); exact hcs.2.2.1 h; exact hcs.2.2.2.1 h),
      if_neg (by
        rintro (h | h | h | h)
        · exact hcs.2.2.2.2.1 h
        · exact hcs.2.2.2.2.2.1 h
        · exact hcs.2.2.2.2.2.2.1 h
        · exact hcs.2.2.2.2.2.2.2.1 h)]
  simp only [pyCodecs, this]

/-- `multipart/form-data; x*=klingon'en'%20` raises `LookupError`. -/
example : MultiPart.create pyCodecs (builtinOps Source goodOs 1) (some b!"multipart/form-data; x*=klingon'en'%20")
    (some b!"12") = .error .lookupError :=
  C32_lookup_refuted (n := b!"x") (cs := b!"klingon") (lang := b!"en") (v := b!"%20") (b := b!" ") _
    (type := b!"multipart/form-data") (s := b!"multipart/form-data") (by decide) (by unfold Visible; decide) .nil
    (by decide) (by unfold Visible; decide) (by unfold Visible; decide) (by decide)
    (.esc 50 48 2 0 rfl rfl .nil) (by decide +kernel) _

/-- **C106** for content types as they are written: `ct` gives the boundary in the extended notation, `ct'` gives the
same boundary plainly.  Both make the same parser.  On an ASCII body it does the same; a body with another byte
that is parsed without exception for `ct'` raises `UnicodeDecodeError` for `ct` (Partial: the property asks for the same in
both cases). -/
theorem C106_written_partial (C : Codecs) (S : Settings) (H : HandlerOps ρ σ F) (fuel64 : Nat)
    (hl : LeavesParsing L H) {type type' ct ct' : Bytes} {ps ps' : List (Bytes × PyStr)}
    (ht : b!"multipart/" <+: type) (hv : ∀ c ∈ type, Visible c ∧ c ∉ b!";\"") (h : ExtMedia C type ps ct)
    (ht' : b!"multipart/" <+: type') (hv' : ∀ c ∈ type', Visible c ∧ c ∉ b!";\"") (h' : ExtMedia C type' ps' ct')
    (ha : ∀ c ∈ ct, c < 128) (ha' : ∀ c ∈ ct', c < 128) {v : Bytes} (hk : BoundaryOk (v.map UInt8.toNat))
    (hb : extParam ps b!"boundary" = some (.u (v.map UInt8.toNat))) (hb' : extParam ps' b!"boundary" = some (.b v))
    (cl : Option Bytes) (hn : 0 ≤ lengthOf cl) :
    ∃ m, MultiPart.create C H (some ct) cl = .ok m ∧ MultiPart.create C H (some ct') cl = .ok m ∧ m.boundary = v ∧
      ∀ input w, SOK L input →
        ((∀ c ∈ L.sc input, c < 128) →
          m.run C S H fuel64 (unicodeBoundary C (some ct)) input w =
            m.run C S H fuel64 (unicodeBoundary C (some ct')) input w) ∧
        (lengthOf cl ≠ 0 → (∀ i a s w, L.sc (H.rawInput i a s w).2.1 = L.sc s) →
          (∀ b, H.Avoids (.stopUpload b)) → (∀ b, C.Avoids (.stopUpload b)) → (∀ k, S.dataMaxMemory = some k → 0 ≤ k) →
          ∀ c ∈ L.sc input, 128 ≤ c → ∀ x s' w',
            m.run C S H fuel64 (unicodeBoundary C (some ct')) input w = (.ok x, s', w') →
            (m.run C S H fuel64 (unicodeBoundary C (some ct)) input w).1 = .error .unicodeDecodeError) := by
  obtain ⟨e1, e2⟩ := (C106_notation_partial C H ht hv h ha hb cl hn).1 _ rfl hk
  obtain ⟨e1', e2'⟩ := (C106_notation_partial C H ht' hv' h' ha' hb' cl hn).2 _ rfl hk
  have e3 : (v.map UInt8.toNat).map UInt8.ofNat = v := toU_ofNat v
  rw [e3] at e2
  have hc : 1 ≤ chunkSizeOf H := (C33_chunk_size _ _ _ _ _ e2').2.1
  refine ⟨_, e2, e2', rfl, fun input w hi => ⟨fun hasc => ?_, fun h0 hs hH hC hmem c hcm hca x s' w' hr => ?_⟩⟩
  · rw [e1, e1']
    exact C106_ascii_partial C S H fuel64 _ hc hl input w hi hasc
  · rw [e1'] at hr
    rw [e1]
    exact C106_refuted C S H fuel64 _ hc (by simp; omega) hl hs hH hC hmem input w hi hcm hca hr

end

/-- `boundary*=utf-8'en'x%2Dy` and `boundary=x-y` make the same parser; only the first boundary is a `unicode` object. -/
example : let ct := b!"multipart/form-data; charset=utf-8; boundary*=utf-8'en'x%2Dy"
    let ct' := b!"multipart/form-data; boundary=x-y"
    MultiPart.create pyCodecs (builtinOps Source goodOs 1) (some ct) (some b!"12") =
      MultiPart.create pyCodecs (builtinOps Source goodOs 1) (some ct') (some b!"12") ∧
    unicodeBoundary pyCodecs (some ct) = true ∧ unicodeBoundary pyCodecs (some ct') = false := by
  intro ct ct'
  have hty : ∀ c ∈ b!"multipart/form-data", Visible c ∧ c ∉ b!";\"" := by unfold Visible; decide
  have h1 : ExtMedia pyCodecs b!"multipart/form-data" [(b!"charset", .b b!"utf-8")]
      b!"multipart/form-data; charset=utf-8" :=
    ExtMedia.plain (ps := []) (s := b!"multipart/form-data") (t := b!"charset=utf-8") .nil
      (by unfold Visible; decide) (by decide) (.inl ⟨by unfold Visible; decide, rfl⟩)
  have h2 : ExtMedia pyCodecs b!"multipart/form-data" [(b!"charset", .b b!"utf-8"), (b!"boundary", .u [120, 45, 121])] ct :=
    ExtMedia.ext (cs := b!"utf-8") (lang := b!"en") (v := b!"x%2Dy") h1 (by unfold Visible; decide)
      (by unfold Visible; decide)
      (.coded (b := b!"x-y") (by decide)
        (.lit 120 (by decide) (.esc 50 68 2 13 rfl rfl (.lit 121 (by decide) .nil))) (by decide +kernel)) (by decide)
  have h3 : ExtMedia pyCodecs b!"multipart/form-data" [(b!"boundary", .b b!"x-y")] ct' :=
    ExtMedia.plain (ps := []) (s := b!"multipart/form-data") (t := b!"boundary=x-y") .nil
      (by unfold Visible; decide) (by decide) (.inl ⟨by unfold Visible; decide, rfl⟩)
  have hk : BoundaryOk (b!"x-y".map UInt8.toNat) := (validBoundary_iff _).1 (by decide +kernel)
  obtain ⟨e1, e2⟩ := (C106_notation_partial pyCodecs (builtinOps Source goodOs 1) (by decide) hty h2 (by decide)
    (b := .u [120, 45, 121]) (by decide +kernel) (some b!"12") (by decide +kernel)).1 _ rfl hk
  obtain ⟨e1', e2'⟩ := (C106_notation_partial pyCodecs (builtinOps Source goodOs 1) (by decide) hty h3 (by decide)
    (b := .b b!"x-y") (by decide +kernel) (some b!"12") (by decide +kernel)).2 _ rfl hk
  exact ⟨e2.trans e2'.symm, e1, e1'⟩

end Verif
