import Verif.Model.Query
import Verif.Proofs.Quote
import Verif.Proofs.MVDict
/-! Helper lemmas about query strings. -/

namespace Verif
open Spec

theorem isFieldSep_iff (c : Nat) : isFieldSep c = true ↔ c = 38 ∨ c = 59 := by
  simp [isFieldSep]

theorem splitFields_ne (s : UStr) : splitFields s ≠ [] := by
  cases s with
  | nil => simp [splitFields]
  | cons c t =>
    simp only [splitFields]
    split
    · simp
    · cases splitFields t <;> simp [consFirst]

theorem splitFieldsN_ne (s : UStr) (n : Nat) : splitFieldsN s n ≠ [] := by
  cases n with
  | zero => simp [splitFieldsN]
  | succ n =>
    cases s with
    | nil => simp [splitFieldsN]
    | cons c t =>
      simp only [splitFieldsN]
      split
      · simp
      · cases splitFieldsN t (n + 1) <;> simp [consFirst]

theorem consFirst_length {c : Nat} {ps : List UStr} (h : ps ≠ []) : (consFirst c ps).length = ps.length := by
  cases ps with
  | nil => exact absurd rfl h
  | cons p ps => rfl

theorem numPieces_cons (c : Nat) (t : UStr) :
    numPieces (c :: t) = numPieces t + if isFieldSep c then 1 else 0 := by
  unfold numPieces
  rw [List.countP_cons]
  have : (c == 38 || c == 59) = isFieldSep c := by
    rw [Bool.eq_iff_iff]; simp [isFieldSep]
  rw [this]; omega

theorem splitFieldsN_length (s : UStr) (n : Nat) :
    (splitFieldsN s n).length = min n (numPieces s - 1) + 1 := by
  induction s generalizing n with
  | nil => cases n <;> simp [splitFieldsN, numPieces]
  | cons c t ih =>
    have hp : 1 ≤ numPieces t := by simp [numPieces]
    cases n with
    | zero => simp [splitFieldsN]
    | succ n =>
      rw [numPieces_cons]
      simp only [splitFieldsN]
      split
      · rename_i h
        simp only [List.length_cons, ih]; omega
      · rename_i h
        rw [consFirst_length (splitFieldsN_ne _ _), ih]; omega

theorem splitFieldsN_all (s : UStr) (n : Nat) (h : numPieces s ≤ n + 1) : splitFieldsN s n = splitFields s := by
  induction s generalizing n with
  | nil => cases n <;> simp [splitFieldsN, splitFields]
  | cons c t ih =>
    have hp : 1 ≤ numPieces t := by simp [numPieces]
    rw [numPieces_cons] at h
    cases n with
    | zero =>
      simp only [splitFieldsN, splitFields]
      split at h
      · omega
      · rename_i hs
        rw [if_neg hs, ← ih 0 (by omega)]
        simp [splitFieldsN, consFirst]
    | succ n =>
      simp only [splitFieldsN, splitFields]
      split
      · rename_i hs
        rw [if_pos hs] at h
        rw [ih n (by omega)]
      · rename_i hs
        rw [if_neg hs] at h
        rw [ih (n + 1) (by omega)]

theorem splitFields_append {p : UStr} (hp : ∀ c ∈ p, isFieldSep c = false) (sep : Nat)
    (hs : isFieldSep sep = true) (r : UStr) : splitFields (p ++ sep :: r) = p :: splitFields r := by
  induction p with
  | nil => simp [splitFields, hs]
  | cons c t ih =>
    simp only [List.cons_append, splitFields, hp c (by simp), Bool.false_eq_true, if_false,
      ih (fun c hc => hp c (by simp [hc])), consFirst]

theorem splitFields_single {p : UStr} (hp : ∀ c ∈ p, isFieldSep c = false) : splitFields p = [p] := by
  induction p with
  | nil => rfl
  | cons c t ih =>
    simp only [splitFields, hp c (by simp), Bool.false_eq_true, if_false,
      ih (fun c hc => hp c (by simp [hc])), consFirst]

/-- The codec reads ASCII bytes as themselves. -/
def AsciiCompat (C : Codecs) (enc : Bytes) : Prop :=
  ∀ b : Bytes, (∀ c ∈ b, c < 128) → C.decodeReplace enc b = .ok (Py.toU b)

theorem toU_replace (a b : UInt8) (s : Bytes) :
    Py.replaceChar a.toNat b.toNat (Py.toU s) = Py.toU (Py.replaceChar a b s) := by
  simp only [Py.replaceChar, Py.toU, List.map_map]
  refine List.map_congr_left fun c _ => ?_
  simp only [Function.comp]
  by_cases h : c = a
  · simp [h]
  · have : c.toNat ≠ a.toNat := fun e => h (UInt8.toNat_inj.1 e)
    simp [h, this]

theorem replace_ascii {s : Bytes} (h : ∀ c ∈ s, c < 128) : ∀ c ∈ Py.replaceChar 43 32 s, c < 128 := by
  intro c hc
  obtain ⟨d, hd, rfl⟩ := List.mem_map.1 hc
  split
  · decide
  · exact h d hd

/-- Reading a name or value. -/
theorem unquote_form {C : Codecs} {enc : Bytes} (hC : AsciiCompat C enc) {t b : Bytes} {u : UStr}
    (h : FormEnc t b) (hu : C.decodeReplace enc b = .ok u) :
    unquoteU C enc (Py.replaceChar 43 32 (Py.toU t)) = .ok u := by
  have e := toU_replace 43 32 t
  have ha := replace_ascii (fun c hc => (h.clean c hc).1)
  rw [show ((43 : UInt8).toNat) = 43 from rfl, show ((32 : UInt8).toNat) = 32 from rfl] at e
  rw [e, unquoteU_ascii C enc _ ha]
  split
  · rw [h.pct.unquote]; exact hu
  · rename_i hn
    have e2 := h.pct.eq_of_no_pct hn
    rw [e2] at ha ⊢
    rw [← hu, hC b ha]

theorem parseField_piece {C : Codecs} {enc : Bytes} (hC : AsciiCompat C enc) {kt kb vt vb : Bytes} {k v : UStr}
    (hk : FormEnc kt kb) (hv : FormEnc vt vb) (dk : C.decodeReplace enc kb = .ok k)
    (dv : C.decodeReplace enc vb = .ok v) :
    parseField C enc true (Py.toU (kt ++ 61 :: vt)) = .ok (some (k, v)) := by
  have e : Py.toU (kt ++ 61 :: vt) = Py.toU kt ++ 61 :: Py.toU vt := by simp [Py.toU]
  have h61 : (61 : Nat) ∉ Py.toU kt := by
    rw [show (61 : Nat) = (61 : UInt8).toNat from rfl, mem_toU]
    exact fun h => (hk.clean 61 h).2.2.2 rfl
  unfold parseField
  rw [if_neg (by rw [e]; simp), e, Py.splitFirst_app h61]
  simp only [or_true, if_true, unquote_form hC hk dk, unquote_form hC hv dv]

theorem noSep_of_clean {t : Bytes} (h : ∀ c ∈ t, c ≠ 38 ∧ c ≠ 59) : ∀ n ∈ Py.toU t, isFieldSep n = false := by
  intro n hn
  obtain ⟨c, hc, rfl⟩ := List.mem_map.1 hn
  by_contra hs
  rw [Bool.not_eq_false, isFieldSep_iff] at hs
  rcases hs with hs | hs
  · exact (h c hc).1 (UInt8.toNat_inj.1 hs)
  · exact (h c hc).2 (UInt8.toNat_inj.1 hs)

theorem Spec.Pieces.clean {dec : Bytes → UStr → Prop} {ps : List (UStr × UStr)} {ts : List Bytes}
    (h : Pieces dec ps ts) : ∀ t ∈ ts, ∀ c ∈ t, c ≠ 38 ∧ c ≠ 59 := by
  induction h with
  | nil => simp
  | skip _ ih =>
    intro t ht
    rcases List.mem_cons.1 ht with rfl | ht
    · simp
    · exact ih t ht
  | cons hk hv _ _ _ ih =>
    intro t ht
    rcases List.mem_cons.1 ht with rfl | ht
    · intro c hc
      rcases List.mem_append.1 hc with hc | hc
      · exact ⟨(hk.clean c hc).2.1, (hk.clean c hc).2.2.1⟩
      · rcases List.mem_cons.1 hc with rfl | hc
        · decide
        · exact ⟨(hv.clean c hc).2.1, (hv.clean c hc).2.2.1⟩
    · exact ih t ht

theorem Spec.Joined.split {ts : List Bytes} {s : Bytes} (h : Joined ts s) (hc : ∀ t ∈ ts, ∀ c ∈ t, c ≠ 38 ∧ c ≠ 59) :
    splitFields (Py.toU s) = if ts = [] then [[]] else ts.map Py.toU := by
  induction h with
  | nil => rfl
  | one t => simp [splitFields_single (noSep_of_clean (hc t (by simp)))]
  | cons t sep hsep hne hj ih =>
    rename_i ts s
    have e : Py.toU (t ++ sep :: s) = Py.toU t ++ sep.toNat :: Py.toU s := by simp [Py.toU]
    have hs : isFieldSep sep.toNat = true := by
      rw [isFieldSep_iff]
      rcases hsep with rfl | rfl
      · exact .inl rfl
      · exact .inr rfl
    rw [e, splitFields_append (noSep_of_clean (hc t (by simp))) _ hs,
      ih (fun t ht => hc t (by simp [ht]))]
    simp [hne]

theorem Spec.Pieces.parse {C : Codecs} {enc : Bytes} (hC : AsciiCompat C enc) {ps : List (UStr × UStr)} {ts : List Bytes}
    (h : Pieces (fun b u => C.decodeReplace enc b = .ok u) ps ts) :
    parseFields C enc true (ts.map Py.toU) = .ok ps := by
  induction h with
  | nil => rfl
  | skip _ ih =>
    have : parseField C enc true (Py.toU []) = .ok none := rfl
    simp only [List.map_cons, parseFields, this, ih, Option.toList_none, List.nil_append]
  | cons hk hv dk dv _ ih =>
    simp only [List.map_cons, parseFields, parseField_piece hC hk hv dk dv, ih]
    rfl

/-! ## The encoder -/

theorem quoteByte_form {safe : Bytes} (hs : ∀ c ∈ safe, c ∉ b!"%+&;=") (c : UInt8) {t b : Bytes}
    (h : FormEnc t b) : FormEnc (quoteByte safe c ++ t) (c :: b) := by
  unfold quoteByte
  split
  · rename_i hk
    refine .lit c ?_ (quoteKeeps_ascii hk) h
    rcases hk with hk | hk
    · have := forall_u8 (fun c => !alwaysSafe c || decide (c ∉ b!"%+&;=")) (by decide +kernel) c
      rw [hk] at this
      simpa using this
    · exact hs c hk.1
  · obtain ⟨h1, h2, h3, _⟩ := hexVal_hexDigit c
    have := FormEnc.esc _ _ _ _ h1 h2 h
    rw [h3] at this
    exact this

theorem quoteBytes_form {safe : Bytes} (hs : ∀ c ∈ safe, c ∉ b!"%+&;=") (s : Bytes) :
    FormEnc (quoteBytes safe s) s := by
  induction s with
  | nil => exact .nil
  | cons c t ih => rw [quoteBytes_cons]; exact quoteByte_form hs c ih

theorem form_plus {t b : Bytes} (h : FormEnc t b) : FormEnc (Py.replaceChar 32 43 t) b := by
  have nx : ∀ x a, hexValue x = some a → x ≠ 32 := by
    rintro x a h rfl; revert h; decide +revert
  induction h with
  | nil => exact .nil
  | lit c hc hl _ ih =>
    simp only [Py.replaceChar, List.map_cons]
    by_cases h : c = 32
    · subst h; rw [if_pos rfl]; exact .plus ih
    · rw [if_neg h]; exact .lit c hc hl ih
  | plus _ ih => exact .plus ih
  | esc x y a c h1 h2 _ ih =>
    simp only [Py.replaceChar, List.map_cons, nx _ _ h1, nx _ _ h2, if_false]
    exact .esc x y a c h1 h2 ih

theorem quotePlus_form (s : Bytes) : FormEnc (quotePlus s) s := by
  unfold quotePlus
  split
  · exact form_plus (quoteBytes_form (by decide) s)
  · exact quoteBytes_form (by simp) s

theorem joinAmp_joined (ts : List Bytes) : Joined ts (joinAmp ts) := by
  induction ts with
  | nil => exact .nil
  | cons t ts ih =>
    cases ts with
    | nil => exact .one t
    | cons t2 ts => exact .cons t 38 (.inl rfl) (by simp) ih

/-! ## The dictionary -/

theorem appendLists_works {C : Conv PyStr PyStr} (hC : ∀ s, C.key (.u s) = .ok (.u s))
    (hV : ∀ s, C.val (.atom (.u s)) = .ok (.atom (.u s))) {i : Nat} (pairs : List (UStr × UStr))
    (m : Mem PyStr PyStr) (wf : m.WF) (hi : i < m.dicts.length) (hc : (m.obj i).cls = .query)
    (hm : (m.obj i).mutable = true) :
    ∃ m', appendLists C i pairs m = (.ok (), m') ∧ Mem.Touch i m m' ∧
      m'.abs i = (m.abs i).addAll (pairs.map (fun p => (.u p.1, .atom (.u p.2)))) := by
  induction pairs generalizing m with
  | nil => exact ⟨m, rfl, .refl _, rfl⟩
  | cons p t ih =>
    obtain ⟨k, v⟩ := p
    have w : Mem.Works C m i (.u k) := ⟨hi, .inr ⟨hc, hm, hC k⟩⟩
    obtain ⟨m1, h1, t1, a1⟩ := Mem.appendBase_works wf w (.atom (.u v))
    have kp := t1.kept wf
    obtain ⟨m2, h2, t2, a2⟩ := ih m1 kp.wf (by rw [kp.dicts]; exact hi) (by rw [kp.cls]; exact hc)
      (by rw [kp.mutbl]; exact hm)
    refine ⟨m2, ?_, .trans t1 t2, ?_⟩
    · unfold appendLists Mem.appendList
      simp only [w.assert, hc, if_true, hC, hV, h1, h2]
    · rw [a2, a1]; rfl

theorem addAll_get {κ α : Type} [DecidableEq κ] (A : AMap κ α) (items : List (κ × Val α)) (k : κ) :
    (A.addAll items) k =
      if k ∈ items.map Prod.fst then
        some ((A k).getD [] ++ (items.filter (fun p => p.1 = k)).map Prod.snd)
      else A k := by
  induction items generalizing A with
  | nil => simp [AMap.addAll]
  | cons p t ih =>
    obtain ⟨a, v⟩ := p
    have e : A.addAll ((a, v) :: t) = (A.add a [v]).addAll t := rfl
    rw [e, ih]
    by_cases h : a = k
    · subst h
      by_cases h2 : a ∈ t.map Prod.fst
      · simp only [h2, if_true, List.map_cons, List.mem_cons, true_or, List.filter_cons, decide_true]
        simp [AMap.add, AMap.upd]
      · have : t.filter (fun p => decide (p.1 = a)) = [] := by
          rw [List.filter_eq_nil_iff]
          intro p hp hc
          exact h2 (List.mem_map.2 ⟨p, hp, by simpa using hc⟩)
        simp [h2, AMap.add, AMap.upd, this]
    · have h' : k ≠ a := fun e => h e.symm
      have hm : (k ∈ List.map Prod.fst ((a, v) :: t)) ↔ k ∈ List.map Prod.fst t := by simp [h']
      simp only [hm, List.filter_cons, decide_eq_true_eq, h, if_false]
      simp [AMap.add, AMap.upd, h']

theorem addAll_pairs (pairs : List (UStr × UStr)) (k : UStr) :
    AMap.addAll (fun _ => none) (pairs.map (fun p => ((PyStr.u p.1, .atom (.u p.2)) : PyStr × Val PyStr))) (.u k) =
      if k ∈ pairs.map Prod.fst then
        some (((pairs.filter (fun p => p.1 = k)).map Prod.snd).map (fun v => .atom (.u v)))
      else none := by
  rw [addAll_get]
  have h1 : (PyStr.u k ∈ (pairs.map (fun p => ((PyStr.u p.1, .atom (.u p.2)) : PyStr × Val PyStr))).map Prod.fst) ↔
      k ∈ pairs.map Prod.fst := by simp
  have h2 : ((pairs.map (fun p => ((PyStr.u p.1, .atom (.u p.2)) : PyStr × Val PyStr))).filter
      (fun p => decide (p.1 = PyStr.u k))).map Prod.snd =
      ((pairs.filter (fun p => p.1 = k)).map Prod.snd).map (fun v => .atom (.u v)) := by
    rw [List.filter_map]
    simp [Function.comp_def]
  simp only [h1, h2, Option.getD_none, List.nil_append]

theorem setMutable_dict {κ α : Type} (m : Mem κ α) (i : Nat) (b : Bool) (j : Nat) :
    (m.setMutable i b).dict j = m.dict j := by
  unfold Mem.dict Mem.obj Mem.setMutable
  simp only [List.getD_eq_getElem?_getD, List.getElem?_set]
  by_cases h : i = j
  · subst h
    by_cases h2 : i < m.dicts.length
    · simp [h2, Mem.obj]
    · simp [h2]
  · simp [h]

theorem setMutable_abs {κ α : Type} [DecidableEq κ] (m : Mem κ α) (i : Nat) (b : Bool) (j : Nat) :
    (m.setMutable i b).abs j = m.abs j := by
  funext k
  unfold Mem.abs
  rw [setMutable_dict]
  rfl

theorem queryConv_key (C : Codecs) (enc : Bytes) (s : UStr) : (queryConv C enc).key (.u s) = .ok (.u s) := rfl
theorem queryConv_val (C : Codecs) (enc : Bytes) (s : UStr) :
    (queryConv C enc).val (.atom (.u s)) = .ok (.atom (.u s)) := rfl

/-- What a new `QueryDict` holds. -/
theorem newQueryDict_abs (C : Codecs) (S : Settings) (qs : Option PyStr) (mt : Bool) (m : Mem PyStr PyStr)
    (wf : m.WF) {q : UStr} {pairs : List (UStr × UStr)} (hq : queryText C S qs = .ok q)
    (hp : limitedParseQsl C q true S.defaultCharset S.maxFields = .ok pairs) :
    ∃ m', newQueryDict C S qs mt m = (.ok m.dicts.length, m') ∧
      m'.abs m.dicts.length = AMap.addAll (fun _ => none) (pairs.map (fun p => (.u p.1, .atom (.u p.2)))) := by
  obtain ⟨m2, h2, _, a2⟩ := appendLists_works (C := queryConv C S.defaultCharset) (queryConv_key C _)
    (queryConv_val C _) pairs (i := m.dicts.length) (m.newDict .query true) (wf.newDict ..)
    (by simp [Mem.newDict]) (by simp [Mem.newDict, Mem.obj]) (by simp [Mem.newDict, Mem.obj])
  refine ⟨m2.setMutable m.dicts.length mt, ?_, ?_⟩
  · unfold newQueryDict
    simp only [hq, hp, h2]
  · rw [setMutable_abs, a2]
    congr 1
    rw [Mem.newDict_abs]
    funext k
    simp [Mem.abs, Mem.dict, Mem.obj, Dict.get?]

end Verif
