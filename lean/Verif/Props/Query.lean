import Verif.Proofs.Query
import Verif.Props.Quote
import Verif.Props.MVDict
/-!
# C51-C53: query strings and `QueryDict`
-/

namespace Verif
open Spec

/-! ## C51: the field limit -/

/-- **C51** With a limit `n ≥ 1` the parser raises `TooManyFieldsSent` iff there are more than `n`
pieces; otherwise it answers as without a limit.  Zero and `None` mean no limit. -/
theorem C51_limit (C : Codecs) (qs : UStr) (kb : Bool) (enc : Bytes) (n : Nat) (hn : 1 ≤ n) :
    (n < numPieces qs → limitedParseQsl C qs kb enc (some n) = .error .tooManyFieldsSent) ∧
    (numPieces qs ≤ n → limitedParseQsl C qs kb enc (some n) = limitedParseQsl C qs kb enc none) ∧
    limitedParseQsl C qs kb enc (some 0) = limitedParseQsl C qs kb enc none := by
  have h0 : ((n : Nat) : Int) ≠ 0 := by omega
  have hl := splitFieldsN_length qs n
  refine ⟨fun h => ?_, fun h => ?_, rfl⟩
  · simp only [limitedParseQsl, h0, if_false, Int.toNat_natCast]
    rw [if_pos (by omega)]
  · simp only [limitedParseQsl, h0, if_false, Int.toNat_natCast]
    rw [if_neg (by have : 1 ≤ numPieces qs := by simp [numPieces]
                   omega), splitFieldsN_all qs n (by omega)]

/-- Without a limit the parser never raises `TooManyFieldsSent` (if the codec does not), so the limit
is the only reason. -/
theorem C51_unlimited (C : Codecs) (hC : ∀ e b, C.decodeReplace e b ≠ .error .tooManyFieldsSent)
    (qs : UStr) (kb : Bool) (enc : Bytes) :
    limitedParseQsl C qs kb enc none ≠ .error .tooManyFieldsSent := by
  have hr : ∀ s, unquoteU C enc s ≠ .error .tooManyFieldsSent := by
    have hr' : ∀ f s, unquoteRuns C enc f s ≠ .error .tooManyFieldsSent := by
      intro f
      induction f with
      | zero => intro s; simp [unquoteRuns]
      | succ f ih =>
        intro s h
        cases s with
        | nil => simp [unquoteRuns] at h
        | cons c t =>
          unfold unquoteRuns at h
          split at h
          · split at h
            · rename_i e he
              simp only [Except.error.injEq] at h
              exact hC _ _ (h ▸ he)
            · split at h
              · rename_i e he
                simp only [Except.error.injEq] at h
                exact ih _ (h ▸ he)
              · simp at h
          · split at h
            · rename_i e he
              simp only [Except.error.injEq] at h
              exact ih _ (h ▸ he)
            · simp at h
    intro s
    unfold unquoteU
    split
    · exact hr' _ _
    · simp
  have hf : ∀ p, parseField C enc kb p ≠ .error .tooManyFieldsSent := by
    intro p h
    unfold parseField at h
    split at h
    · simp at h
    · split at h
      · simp at h
      · split at h
        · split at h
          · rename_i e he
            simp only [Except.error.injEq] at h
            exact hr _ (h ▸ he)
          · split at h
            · rename_i e he
              simp only [Except.error.injEq] at h
              exact hr _ (h ▸ he)
            · simp at h
        · simp at h
  show parseFields C enc kb (splitFields qs) ≠ _
  induction splitFields qs with
  | nil => simp [parseFields]
  | cons p ps ih =>
    unfold parseFields
    split
    · rename_i e he
      intro h
      simp only [Except.error.injEq] at h
      exact hf _ (h ▸ he)
    · split
      · rename_i e he
        intro h
        simp only [Except.error.injEq] at h
        exact ih (h ▸ he)
      · simp

/-- A negative limit makes every query string too long, even the empty one. -/
theorem C51_negative (C : Codecs) (qs : UStr) (kb : Bool) (enc : Bytes) (l : Int) (hl : l < 0) :
    limitedParseQsl C qs kb enc (some l) = .error .tooManyFieldsSent := by
  simp only [limitedParseQsl, show l ≠ 0 by omega, if_false]
  rw [if_pos (by omega)]

example : (limitedParseQsl latin1 (Py.toU b!"a=1&;b=2") true b!"utf-8" (some 3)).toOption =
    some [(Py.toU b!"a", Py.toU b!"1"), (Py.toU b!"b", Py.toU b!"2")] ∧
    numPieces (Py.toU b!"a=1&;b=2") = 3 ∧
    (limitedParseQsl latin1 (Py.toU b!"a=1&;b=2") true b!"utf-8" (some 2)).toOption = none := by
  decide +kernel

/-! ## C52: round trip -/

/-- **C52** (any encoder) However the pairs are written - any mix of literal characters, `+` and
escapes, either separator, extra empty pieces - parsing gives the pairs back, in order.  `hC`: the
encoding extends ASCII. -/
theorem C52_parse (C : Codecs) (enc : Bytes) (hC : AsciiCompat C enc) (ps : List (UStr × UStr))
    (ts : List Bytes) (s : Bytes) (h : Pieces (fun b u => C.decodeReplace enc b = .ok u) ps ts)
    (hj : Joined ts s) : limitedParseQsl C (Py.toU s) true enc none = .ok ps := by
  show parseFields C enc true (splitFields (Py.toU s)) = .ok ps
  rw [hj.split h.clean]
  split
  · rename_i e
    subst e
    cases h
    rfl
  · exact h.parse hC

/-- The conditions can be met: the pair `("a b", "=")` written in two ways among empty pieces. -/
example : AsciiCompat latin1 b!"utf-8" ∧
    Pieces (fun b u => latin1.decodeReplace b!"utf-8" b = .ok u)
      [(Py.toU b!"a b", Py.toU b!"="), (Py.toU b!"a b", Py.toU b!"=")] [b!"a+b=%3d", [], b!"%61%20b=%3D"] ∧
    Joined [b!"a+b=%3d", [], b!"%61%20b=%3D"] b!"a+b=%3d&;%61%20b=%3D" := by
  have e : FormEnc b!"%3D" b!"=" := .esc 51 68 3 13 (by decide) (by decide) .nil
  have e' : FormEnc b!"%3d" b!"=" := .esc 51 100 3 13 (by decide) (by decide) .nil
  refine ⟨fun b _ => rfl, ?_, ?_⟩
  · exact .cons (kt := b!"a+b") (kb := b!"a b") (vt := b!"%3d") (vb := b!"=")
      (.lit 97 (by decide) (by decide) (.plus (.lit 98 (by decide) (by decide) .nil))) e' rfl rfl
      (.skip (.cons (kt := b!"%61%20b") (kb := b!"a b") (vt := b!"%3D") (vb := b!"=")
        (.esc 54 49 6 1 (by decide) (by decide) (.esc 50 48 2 0 (by decide) (by decide)
          (.lit 98 (by decide) (by decide) .nil))) e rfl rfl .nil))
  · exact .cons b!"a+b=%3d" 38 (.inl rfl) (by simp) (.cons [] 59 (.inr rfl) (by simp) (.one b!"%61%20b=%3D"))

/-- The codec takes this text to some bytes and back. -/
def Encodable (C : Codecs) (enc : Bytes) (u : UStr) : Prop :=
  ∃ b, C.encode enc u = .ok b ∧ C.decodeReplace enc b = .ok u

theorem encodePairs_pieces (C : Codecs) (enc : Bytes) (safe : Option Bytes)
    (hs : ∀ s ∈ safe, ∀ c ∈ s, c ∉ b!"%+&;=") (ps : List (UStr × UStr))
    (hk : ∀ p ∈ ps, Encodable C enc p.1) (hv : ∀ p ∈ ps, Encodable C enc p.2 ∧ ∀ n ∈ p.2, n < 128) :
    ∃ ts, encodePairs C enc safe ps = .ok ts ∧ Pieces (fun b u => C.decodeReplace enc b = .ok u) ps ts ∧
      ∀ t ∈ ts, ∀ c ∈ t, c < 128 := by
  induction ps with
  | nil => exact ⟨[], rfl, .nil, by simp⟩
  | cons p ps ih =>
    obtain ⟨k, v⟩ := p
    obtain ⟨ts, h1, h2, h3⟩ := ih (fun p hp => hk p (by simp [hp])) (fun p hp => hv p (by simp [hp]))
    obtain ⟨kb, k1, k2⟩ := hk (k, v) (by simp)
    obtain ⟨⟨vb, v1, v2⟩, va⟩ := hv (k, v) (by simp)
    have hv' : v.all (· < 128) = true := by simpa using va
    cases safe with
    | none =>
      refine ⟨(quotePlus kb ++ 61 :: quotePlus vb) :: ts, ?_, ?_, ?_⟩
      · simp only [encodePairs, encodePair, encodeValue, k1, hv', if_true, v1, h1]
      · exact .cons (quotePlus_form kb) (quotePlus_form vb) k2 v2 h2
      · intro t ht
        rcases List.mem_cons.1 ht with rfl | ht
        · intro c hc
          rcases List.mem_append.1 hc with hc | hc
          · exact ((quotePlus_form kb).clean c hc).1
          · rcases List.mem_cons.1 hc with rfl | hc
            · decide
            · exact ((quotePlus_form vb).clean c hc).1
        · exact h3 t ht
    | some s =>
      have fk := quoteBytes_form (hs s rfl) kb
      have fv := quoteBytes_form (hs s rfl) vb
      refine ⟨(quoteBytes s kb ++ 61 :: quoteBytes s vb) :: ts, ?_, ?_, ?_⟩
      · simp only [encodePairs, encodePair, encodeValue, k1, hv', if_true, v1, h1]
      · exact .cons fk fv k2 v2 h2
      · intro t ht
        rcases List.mem_cons.1 ht with rfl | ht
        · intro c hc
          rcases List.mem_append.1 hc with hc | hc
          · exact (fk.clean c hc).1
          · rcases List.mem_cons.1 hc with rfl | hc
            · decide
            · exact (fv.clean c hc).1
        · exact h3 t ht

theorem joinAmp_ascii {ts : List Bytes} (h : ∀ t ∈ ts, ∀ c ∈ t, c < 128) : ∀ c ∈ joinAmp ts, c < 128 := by
  induction ts with
  | nil => simp [joinAmp]
  | cons t ts ih =>
    cases ts with
    | nil => simpa [joinAmp] using h
    | cons t2 ts =>
      intro c hc
      rcases List.mem_append.1 hc with hc | hc
      · exact h t (by simp) c hc
      · rcases List.mem_cons.1 hc with rfl | hc
        · decide
        · exact ih (fun t ht => h t (by simp [ht])) c hc

theorem get?_none {β : Type} (d : List (UStr × β)) (k : UStr) : Dict.get? d k = none ↔ k ∉ d.map Prod.fst := by
  induction d with
  | nil => simp [Dict.get?]
  | cons p d ih =>
    obtain ⟨a, v⟩ := p
    by_cases h : a = k
    · simp [Dict.get?, h]
    · simp [Dict.get?, h, ih, Ne.symm h]

theorem flatPairs_keys (d : List (UStr × List UStr)) (k : UStr) (hne : ∀ p ∈ d, p.2 ≠ []) :
    k ∈ (flatPairs d).map Prod.fst ↔ k ∈ d.map Prod.fst := by
  constructor
  · intro h
    obtain ⟨⟨a, v⟩, h2, rfl⟩ := List.mem_map.1 h
    obtain ⟨p, hp, h3⟩ := List.mem_flatMap.1 h2
    obtain ⟨w, _, e⟩ := List.mem_map.1 h3
    exact List.mem_map.2 ⟨p, hp, congrArg Prod.fst e⟩
  · intro h
    obtain ⟨⟨a, vs⟩, h2, rfl⟩ := List.mem_map.1 h
    obtain ⟨v, hv⟩ := List.exists_mem_of_ne_nil _ (hne _ h2)
    exact List.mem_map.2 ⟨(a, v), List.mem_flatMap.2 ⟨_, h2, List.mem_map.2 ⟨v, hv, rfl⟩⟩, rfl⟩

theorem flatPairs_filter (d : List (UStr × List UStr)) (hn : (d.map Prod.fst).Nodup) (k : UStr) :
    ((flatPairs d).filter (fun p => p.1 = k)).map Prod.snd = (Dict.get? d k).getD [] := by
  induction d with
  | nil => rfl
  | cons p d ih =>
    obtain ⟨a, vs⟩ := p
    rw [List.map_cons, List.nodup_cons] at hn
    have e : flatPairs ((a, vs) :: d) = vs.map (fun v => (a, v)) ++ flatPairs d := rfl
    rw [e, List.filter_append, List.map_append, ih hn.2]
    by_cases h : a = k
    · subst h
      have h1 : (vs.map (fun v => (a, v))).filter (fun p => decide (p.1 = a)) = vs.map (fun v => (a, v)) := by
        rw [List.filter_eq_self]; simp
      have h2 : Dict.get? d a = none := by
        rw [get?_none]; exact hn.1
      rw [h1, h2]
      simp [Dict.get?, Function.comp_def]
    · have h1 : (vs.map (fun v => (a, v))).filter (fun p => decide (p.1 = k)) = [] := by
        rw [List.filter_eq_nil_iff]; simp [h]
      rw [h1]
      simp [Dict.get?, h]

theorem encodePairs_length {C : Codecs} {enc : Bytes} {safe : Option Bytes} {ps : List (UStr × UStr)} {ts : List Bytes}
    (h : encodePairs C enc safe ps = .ok ts) : ts.length = ps.length := by
  induction ps generalizing ts with
  | nil => simp only [encodePairs, Except.ok.injEq] at h; subst h; rfl
  | cons p ps ih =>
    obtain ⟨k, v⟩ := p
    unfold encodePairs at h
    split at h
    · simp at h
    · split at h
      · simp at h
      · rename_i he
        simp only [Except.ok.injEq] at h
        subst h
        simp [ih he]

theorem splitFields_length (s : UStr) : (splitFields s).length = numPieces s := by
  have hp : 1 ≤ numPieces s := by simp [numPieces]
  rw [← splitFieldsN_all s (numPieces s) (by omega), splitFieldsN_length]
  omega

/-- The limit admits this many pairs. -/
def Admits (limit : Option Int) (n : Nat) : Prop := ∀ l, limit = some l → l = 0 ∨ (0 < l ∧ (n : Int) ≤ l)

theorem limited_admits {C : Codecs} {qs : UStr} {enc : Bytes} {limit : Option Int} {n : Nat} (hn : numPieces qs ≤ max 1 n)
    (h : Admits limit n) : limitedParseQsl C qs true enc limit = limitedParseQsl C qs true enc none := by
  cases limit with
  | none => rfl
  | some l =>
    rcases h l rfl with rfl | ⟨h1, h2⟩
    · rfl
    · obtain ⟨a, rfl⟩ := Int.eq_ofNat_of_zero_le (by omega : 0 ≤ l)
      exact (C51_limit C qs true enc a (by omega)).2.1 (by omega)

/-- **C52** (`QueryDict`) `QueryDict(d.urlencode())` has the same lists as `d`, if no list is empty
and the values are ASCII.  Both conditions are needed, see below.  The keys may be any text the
encoding can write. -/
theorem C52_querydict_partial (C : Codecs) (S : Settings) (hC : AsciiCompat C S.defaultCharset)
    (hD : ∀ b : Bytes, (∀ c ∈ b, c < 128) → C.decode S.defaultCharset b = .ok (Py.toU b))
    (safe : Option Bytes) (hs : ∀ s ∈ safe, ∀ c ∈ s, c ∉ b!"%+&;=")
    (d : List (UStr × List UStr)) (hn : (d.map Prod.fst).Nodup)
    (hne : ∀ p ∈ d, p.2 ≠ []) (hk : ∀ p ∈ d, Encodable C S.defaultCharset p.1)
    (hv : ∀ p ∈ d, ∀ v ∈ p.2, Encodable C S.defaultCharset v ∧ ∀ n ∈ v, n < 128)
    (hlim : Admits S.maxFields (d.map (fun p => p.2.length)).sum) (mt : Bool) (m : Mem PyStr PyStr) (wf : m.WF) :
    ∃ s m', urlencodeLists C S.defaultCharset safe d = .ok s ∧
      newQueryDict C S (some (.b s)) mt m = (.ok m.dicts.length, m') ∧
      ∀ k, m'.abs m.dicts.length (.u k) = (Dict.get? d k).map (·.map (fun v => .atom (.u v))) := by
  have hk' : ∀ p ∈ flatPairs d, Encodable C S.defaultCharset p.1 := by
    intro p hp
    obtain ⟨q, hq, h⟩ := List.mem_flatMap.1 hp
    obtain ⟨w, _, rfl⟩ := List.mem_map.1 h
    exact hk q hq
  have hv' : ∀ p ∈ flatPairs d, Encodable C S.defaultCharset p.2 ∧ ∀ n ∈ p.2, n < 128 := by
    intro p hp
    obtain ⟨q, hq, h⟩ := List.mem_flatMap.1 hp
    obtain ⟨w, hw, rfl⟩ := List.mem_map.1 h
    exact hv q hq w hw
  obtain ⟨ts, h1, h2, h3⟩ := encodePairs_pieces C S.defaultCharset safe hs (flatPairs d) hk' hv'
  have hpar := C52_parse C _ hC _ _ _ h2 (joinAmp_joined ts)
  have hlen : ts.length = (d.map (fun p => p.2.length)).sum := by
    rw [encodePairs_length h1, flatPairs, List.length_flatMap]
    simp
  have hnum : numPieces (Py.toU (joinAmp ts)) ≤ max 1 (d.map (fun p => p.2.length)).sum := by
    rw [← splitFields_length, (joinAmp_joined ts).split h2.clean, ← hlen]
    split
    · simp
    · simp
  rw [← limited_admits hnum hlim] at hpar
  have hq : queryText C S (some (.b (joinAmp ts))) = .ok (Py.toU (joinAmp ts)) := by
    unfold queryText
    simp only [hD _ (joinAmp_ascii h3)]
  obtain ⟨m', e1, e2⟩ := newQueryDict_abs C S (some (.b (joinAmp ts))) mt m wf hq hpar
  refine ⟨joinAmp ts, m', by simp only [urlencodeLists, h1], e1, fun k => ?_⟩
  rw [e2, addAll_pairs]
  by_cases hm : k ∈ (flatPairs d).map Prod.fst
  · rw [if_pos hm, flatPairs_filter d hn]
    cases hg : Dict.get? d k with
    | none =>
      rw [get?_none] at hg
      exact absurd ((flatPairs_keys d k hne).1 hm) hg
    | some vs => rfl
  · rw [if_neg hm]
    rw [flatPairs_keys d k hne] at hm
    rw [(get?_none ..).2 hm]
    rfl

/-- The conditions can be met: keys with special characters, several values, blank ones. -/
example : (urlencodeLists latin1 b!"utf-8" none
      [(Py.toU b!"a&=%+ ;", [Py.toU b!"1 2", [], Py.toU b!"x;y"]), ([233], [[]])]).toOption =
    some b!"a%26%3D%25%2B+%3B=1+2&a%26%3D%25%2B+%3B=&a%26%3D%25%2B+%3B=x%3By&%E9=" ∧
    (limitedParseQsl latin1 (Py.toU b!"a%26%3D%25%2B+%3B=1+2&a%26%3D%25%2B+%3B=&a%26%3D%25%2B+%3B=x%3By&%E9=") true
      b!"utf-8" none).toOption =
    some [(Py.toU b!"a&=%+ ;", Py.toU b!"1 2"), (Py.toU b!"a&=%+ ;", []), (Py.toU b!"a&=%+ ;", Py.toU b!"x;y"),
      ([233], [])] := by
  decide +kernel

/-- **C52** is false for values outside ASCII: `urlencode` applies `str` to them and raises
`UnicodeEncodeError`, whatever the encoding can write. -/
theorem C52_nonascii_refuted (C : Codecs) (enc : Bytes) (safe : Option Bytes) (k v : UStr) (vs : List UStr)
    (d : List (UStr × List UStr)) (hk : Encodable C enc k) (hv : ∃ n ∈ v, 128 ≤ n) :
    urlencodeLists C enc safe ((k, v :: vs) :: d) = .error .unicodeEncodeError := by
  obtain ⟨kb, h1, _⟩ := hk
  have h2 : v.all (· < 128) = false := by
    simp only [List.all_eq_false, decide_eq_true_eq, not_lt]
    exact hv
  have e : flatPairs ((k, v :: vs) :: d) = (k, v) :: (vs.map (fun v => (k, v)) ++ flatPairs d) := rfl
  simp only [urlencodeLists, e, encodePairs, encodePair, h1, encodeValue, h2, Bool.false_eq_true, if_false]

example : Encodable latin1 b!"latin-1" (Py.toU b!"k") ∧ ∃ n ∈ ([233] : UStr), 128 ≤ n :=
  ⟨⟨b!"k", rfl, rfl⟩, 233, by simp, by decide⟩

/-- **C52** is false for a key with an empty list: it is not written, so it does not come back. -/
theorem C52_empty_list_refuted (C : Codecs) (enc : Bytes) (safe : Option Bytes) (k : UStr)
    (d d' : List (UStr × List UStr)) :
    urlencodeLists C enc safe (d ++ (k, []) :: d') = urlencodeLists C enc safe (d ++ d') := by
  have : flatPairs (d ++ (k, []) :: d') = flatPairs (d ++ d') := by
    simp [flatPairs]
  unfold urlencodeLists
  rw [this]

/-! ## C53: the lists of a `QueryDict` -/

/-- **C53** When a `QueryDict` is built from a query string, its pairs are those of the parser; for
every key, `getlist` returns the values of all the pairs with that key, in order. -/
theorem C53_getlist (C : Codecs) (S : Settings) (qs : Option PyStr) (mt : Bool) (m m' : Mem PyStr PyStr)
    (wf : m.WF) (i : Nat) (h : newQueryDict C S qs mt m = (.ok i, m')) :
    ∃ q pairs, queryText C S qs = .ok q ∧
      limitedParseQsl C q true S.defaultCharset S.maxFields = .ok pairs ∧
      ∀ k, ∃ r m'', m'.getList i (.u k) .none = (.ok (.list r), m'') ∧
        m''.elems r = ((pairs.filter (fun p => p.1 = k)).map (fun p => .atom (.u p.2))) := by
  cases hq : queryText C S qs with
  | error e => simp [newQueryDict, hq] at h
  | ok q =>
    cases hp : limitedParseQsl C q true S.defaultCharset S.maxFields with
    | error e => simp [newQueryDict, hq, hp] at h
    | ok pairs =>
      obtain ⟨m1, e1, e2⟩ := newQueryDict_abs C S qs mt m wf hq hp
      rw [e1] at h
      obtain ⟨rfl, rfl⟩ : m.dicts.length = i ∧ m1 = m' := by simpa using h
      refine ⟨q, pairs, rfl, hp, fun k => ?_⟩
      have a := (answers_abs m1 m.dicts.length).getlist (.u k) .none
      rw [e2, addAll_pairs] at a
      by_cases hm : k ∈ pairs.map Prod.fst
      · rw [if_pos hm] at a
        obtain ⟨r, m2, g1, g2⟩ := a
        exact ⟨r, m2, g1, by rw [g2]; simp [Function.comp_def]⟩
      · rw [if_neg hm] at a
        obtain ⟨r, m2, g1, g2⟩ := a
        refine ⟨r, m2, g1, ?_⟩
        rw [g2, List.filter_eq_nil_iff.2]
        · rfl
        · intro p hp hc
          exact hm (List.mem_map.2 ⟨p, hp, by simpa using hc⟩)

/-- A concrete dictionary: three pairs, two keys. -/
example :
    let S : Settings := { defaultCharset := b!"utf-8", maxFields := some 3 }
    let r := newQueryDict latin1 S (some (.b b!"a=1&b=2&a=+")) false ⟨[], []⟩
    r.1.toOption = some 0 ∧ r.2.abs 0 (.u (Py.toU b!"a")) = some [.atom (.u [49]), .atom (.u [32])] := by
  decide +kernel

end Verif
