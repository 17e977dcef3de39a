import Verif.Props.Uri
/-!
# Lists written by `urlencode` without `doseq` (C82)
-/

namespace Verif
open Spec

namespace Spec

/-- A character of a Python 2 string literal in quotes `q`, and the byte it stands for. -/
inductive LitChar (q : UInt8) : Bytes → UInt8 → Prop where
  | plain (c) : c ≠ q → c ≠ 92 → c ≠ 10 → LitChar q [c] c
  | esc (x c) : (x, c) ∈ [((92 : UInt8), (92 : UInt8)), (39, 39), (34, 34), (116, 9), (110, 10), (114, 13)] →
      LitChar q [92, x] c
  | hex (x y a b) : hexValue x = some a → hexValue y = some b → LitChar q [92, 120, x, y] (a * 16 + b)

/-- What is between the quotes. -/
inductive LitBody (q : UInt8) : Bytes → Bytes → Prop where
  | nil : LitBody q [] []
  | cons {e c t s} : LitChar q e c → LitBody q t s → LitBody q (e ++ t) (c :: s)

/-- A string literal of Python 2 and its value. -/
def Literal (t s : Bytes) : Prop := ∃ q b, (q = 34 ∨ q = 39) ∧ LitBody q b s ∧ t = q :: (b ++ [q])

/-- The literals of a list, with `, ` between them. -/
inductive Items : Bytes → List Bytes → Prop where
  | one {t s} : Literal t s → Items t [s]
  | cons {t s u ss} : Literal t s → Items u ss → Items (t ++ 44 :: 32 :: u) (s :: ss)

/-- A list of string literals in Python and its value. -/
def ListLiteral (t : Bytes) (ss : List Bytes) : Prop :=
  (t = [91, 93] ∧ ss = []) ∨ ∃ u, Items u ss ∧ t = 91 :: (u ++ [93])

end Spec

theorem litChar_first {q : UInt8} (hq : q = 34 ∨ q = 39) {e : Bytes} {c : UInt8} (h : LitChar q e c) (t t' : Bytes) :
    e ++ t ≠ q :: t' := by
  cases h with
  | plain _ h => intro he; exact h (List.cons.inj he).1
  | esc x _ _ => intro he; have := (List.cons.inj he).1; rcases hq with rfl | rfl <;> exact absurd this (by decide)
  | hex => intro he; have := (List.cons.inj he).1; rcases hq with rfl | rfl <;> exact absurd this (by decide)

theorem litChar_inj {q : UInt8} {e e' t t' : Bytes} {c c' : UInt8} (h : LitChar q e c) (h' : LitChar q e' c')
    (he : e ++ t = e' ++ t') : c = c' ∧ t = t' := by
  have tab : ∀ x c c' : UInt8, (x, c) ∈ [((92 : UInt8), (92 : UInt8)), (39, 39), (34, 34), (116, 9), (110, 10), (114, 13)] →
      (x, c') ∈ [((92 : UInt8), (92 : UInt8)), (39, 39), (34, 34), (116, 9), (110, 10), (114, 13)] → c = c' := by
    intro x c c' h h'
    simp only [List.mem_cons, Prod.mk.injEq, List.not_mem_nil, or_false] at h h'
    rcases h with ⟨rfl, rfl⟩ | ⟨rfl, rfl⟩ | ⟨rfl, rfl⟩ | ⟨rfl, rfl⟩ | ⟨rfl, rfl⟩ | ⟨rfl, rfl⟩ <;> simpa [eq_comm] using h'
  have nox : ∀ c : UInt8, (120, c) ∉ [((92 : UInt8), (92 : UInt8)), (39, 39), (34, 34), (116, 9), (110, 10), (114, 13)] := by
    intro c h
    simp at h
  cases h with
  | plain _ h1 h2 h3 =>
    cases h' with
    | plain => simpa using he
    | esc => exact absurd (List.cons.inj he).1 h2
    | hex => exact absurd (List.cons.inj he).1 h2
  | esc x _ hm =>
    cases h' with
    | plain _ h1 h2 h3 => exact absurd (List.cons.inj he).1.symm h2
    | esc y _ hm' =>
      simp only [List.cons_append, List.nil_append, List.cons.injEq, true_and] at he
      obtain ⟨rfl, rfl⟩ := he
      exact ⟨tab _ _ _ hm hm', rfl⟩
    | hex =>
      simp only [List.cons_append, List.nil_append, List.cons.injEq, true_and] at he
      rw [he.1] at hm
      exact absurd hm (nox _)
  | hex x y a b ha hb =>
    cases h' with
    | plain _ h1 h2 h3 => exact absurd (List.cons.inj he).1.symm h2
    | esc y _ hm' =>
      simp only [List.cons_append, List.nil_append, List.cons.injEq, true_and] at he
      rw [← he.1] at hm'
      exact absurd hm' (nox _)
    | hex x' y' a' b' ha' hb' =>
      simp only [List.cons_append, List.nil_append, List.cons.injEq, true_and] at he
      obtain ⟨rfl, rfl, rfl⟩ := he
      rw [ha] at ha'
      rw [hb] at hb'
      cases ha'; cases hb'
      exact ⟨rfl, rfl⟩

theorem litBody_inj {q : UInt8} (hq : q = 34 ∨ q = 39) {b b' s s' t t' : Bytes} (h : LitBody q b s) (h' : LitBody q b' s')
    (he : b ++ q :: t = b' ++ q :: t') : s = s' ∧ t = t' := by
  induction h generalizing b' s' with
  | nil =>
    cases h' with
    | nil => exact ⟨rfl, (List.cons.inj he).2⟩
    | cons hc => rw [List.append_assoc] at he; exact absurd he.symm (litChar_first hq hc _ _)
  | cons hc _ ih =>
    cases h' with
    | nil => rw [List.append_assoc] at he; exact absurd he (litChar_first hq hc _ _)
    | cons hc' h' =>
      rw [List.append_assoc, List.append_assoc] at he
      obtain ⟨rfl, he⟩ := litChar_inj hc hc' he
      obtain ⟨rfl, rfl⟩ := ih h' he
      exact ⟨rfl, rfl⟩

theorem literal_inj {a a' s s' t t' : Bytes} (h : Literal a s) (h' : Literal a' s') (he : a ++ t = a' ++ t') :
    s = s' ∧ t = t' := by
  obtain ⟨q, b, hq, hb, rfl⟩ := h
  obtain ⟨q', b', hq', hb', rfl⟩ := h'
  simp only [List.cons_append, List.append_assoc, List.nil_append, List.cons.injEq] at he
  obtain ⟨rfl, he⟩ := he
  exact litBody_inj hq hb hb' he

theorem items_inj {a a' : Bytes} {ss ss' : List Bytes} (h : Items a ss) (h' : Items a' ss')
    (he : a ++ [93] = a' ++ [93]) : ss = ss' := by
  induction h generalizing a' ss' with
  | one hl =>
    cases h' with
    | one hl' => rw [(literal_inj hl hl' he).1]
    | cons hl' _ =>
      rw [List.append_assoc] at he
      exact absurd (literal_inj hl hl' he).2 (by simp)
  | cons hl _ ih =>
    cases h' with
    | one hl' =>
      rw [List.append_assoc] at he
      exact absurd (literal_inj hl hl' he).2 (by simp)
    | cons hl' h' =>
      rw [List.append_assoc, List.append_assoc] at he
      obtain ⟨rfl, he⟩ := literal_inj hl hl' he
      simp only [List.cons_append, List.cons.injEq, true_and] at he
      rw [ih h' he]

/-- The value of a list literal is determined by its text. -/
theorem listLiteral_inj {t : Bytes} {ss ss' : List Bytes} (h : ListLiteral t ss) (h' : ListLiteral t ss') : ss = ss' := by
  have no : ∀ {u : Bytes} {ss : List Bytes}, Items u ss → [91, 93] ≠ (91 : UInt8) :: (u ++ [93]) := by
    intro u ss hu he
    simp only [List.cons.injEq, true_and] at he
    have : u = [] := by simpa using congrArg List.length he
    subst this
    generalize hz : ([] : Bytes) = z at hu
    cases hu with
    | one hl => obtain ⟨q, b, _, _, rfl⟩ := hl; simp at hz
    | cons => simp at hz
  rcases h with ⟨rfl, rfl⟩ | ⟨u, hu, rfl⟩ <;> rcases h' with ⟨h1, rfl⟩ | ⟨u', hu', h1⟩
  · rfl
  · exact absurd h1 (no hu')
  · exact absurd h1.symm (no hu)
  · simp only [List.cons.injEq, true_and] at h1
    exact items_inj hu hu' h1

/-! ## What `repr` writes -/

theorem reprByte_lit {q : UInt8} (hq : q = 34 ∨ q = 39) (c : UInt8) : LitChar q (reprByte q c) c := by
  have hex : ∀ c : UInt8, hexValue (if c / 16 < 10 then 48 + c / 16 else 87 + c / 16) = some (c / 16) ∧
      hexValue (if c % 16 < 10 then 48 + c % 16 else 87 + c % 16) = some (c % 16) ∧ c / 16 * 16 + c % 16 = c := by
    intro c
    have := forall_u8 (fun c => decide (hexValue (if c / 16 < 10 then 48 + c / 16 else 87 + c / 16) = some (c / 16) ∧
      hexValue (if c % 16 < 10 then 48 + c % 16 else 87 + c % 16) = some (c % 16) ∧ c / 16 * 16 + c % 16 = c))
      (by decide +kernel) c
    simpa only [decide_eq_true_eq] using this
  unfold reprByte
  split
  · rename_i h
    rcases h with rfl | rfl
    · exact .esc _ _ (by rcases hq with rfl | rfl <;> decide)
    · exact .esc _ _ (by decide)
  split
  · rename_i h; subst h; exact .esc 116 9 (by decide)
  split
  · rename_i h; subst h; exact .esc 110 10 (by decide)
  split
  · rename_i h; subst h; exact .esc 114 13 (by decide)
  split
  · obtain ⟨h1, h2, h3⟩ := hex c
    have := LitChar.hex (q := q) _ _ _ _ h1 h2
    rw [h3] at this
    exact this
  · rename_i h1 h2 h3 h4 h5
    simp only [not_or] at h1
    exact .plain c h1.1 h1.2 h3

theorem reprBytes_literal (s : Bytes) : Literal (reprBytes s) s := by
  have body : ∀ (q : UInt8), (q = 34 ∨ q = 39) → LitBody q (s.flatMap (reprByte q)) s := by
    intro q hq
    induction s with
    | nil => exact .nil
    | cons c s ih => exact .cons (reprByte_lit hq c) ih
  unfold reprBytes
  refine ⟨_, _, ?_, body _ ?_, rfl⟩ <;> split <;> simp

theorem reprList_literal (ss : List Bytes) : ListLiteral (reprList ss) ss := by
  match ss with
  | [] => exact .inl ⟨rfl, rfl⟩
  | s :: ss =>
    have items : ∀ (ss : List Bytes) (s : Bytes),
        Items (List.intercalate b!", " ((s :: ss).map reprBytes)) (s :: ss) := by
      intro ss
      induction ss with
      | nil => intro s; simpa [List.intercalate] using Items.one (reprBytes_literal s)
      | cons r ss ih =>
        intro s
        have := Items.cons (reprBytes_literal s) (ih r)
        simpa [List.intercalate] using this
    exact .inr ⟨_, items ss s, rfl⟩

/-- All bytes that `repr` writes are ASCII. -/
theorem reprList_ascii (ss : List Bytes) : ∀ c ∈ reprList ss, c < 128 := by
  have one : ∀ q c : UInt8, (q = 34 ∨ q = 39) → ∀ x ∈ reprByte q c, x < 128 := by
    have : ∀ c : UInt8, (∀ x ∈ reprByte 34 c, x < 128) ∧ (∀ x ∈ reprByte 39 c, x < 128) := by
      intro c
      have := forall_u8 (fun c => decide ((∀ x ∈ reprByte 34 c, x < 128) ∧ (∀ x ∈ reprByte 39 c, x < 128)))
        (by decide +kernel) c
      simpa only [decide_eq_true_eq] using this
    rintro q c (rfl | rfl)
    · exact (this c).1
    · exact (this c).2
  have str : ∀ s : Bytes, ∀ c ∈ reprBytes s, c < 128 := by
    intro s c hc
    have gen : ∀ q : UInt8, (q = 34 ∨ q = 39) → c ∈ [q] ++ s.flatMap (reprByte q) ++ [q] → c < 128 := by
      intro q hq hc
      simp only [List.mem_append, List.mem_singleton, List.mem_flatMap] at hc
      rcases hc with (rfl | ⟨x, _, hx⟩) | rfl
      · rcases hq with rfl | rfl <;> decide
      · exact one q x hq c hx
      · rcases hq with rfl | rfl <;> decide
    unfold reprBytes at hc
    exact gen _ (by split <;> simp) hc
  have all : ∀ ss : List Bytes, ∀ c ∈ List.intercalate b!", " (ss.map reprBytes), c < 128 := by
    intro ss
    induction ss with
    | nil => intro c hc; simp [List.intercalate] at hc
    | cons s ss ih =>
      cases ss with
      | nil => intro c hc; simp [List.intercalate] at hc; exact str s c hc
      | cons r ss =>
        intro c hc
        simp only [List.map_cons, List.intercalate_cons_cons, List.mem_append] at hc
        rcases hc with (hc | hc) | hc
        · exact str s c hc
        · revert hc c; decide
        · exact ih c (by simpa using hc)
  intro c hc
  unfold reprList at hc
  simp only [List.mem_append] at hc
  rcases hc with (hc | hc) | hc
  · revert hc c; decide
  · exact all ss c hc
  · revert hc c; decide

theorem nativeItems_bytes (ss : List Bytes) : nativeItems (ss.map fun s => some (.b s)) = .ok ss := by
  induction ss with
  | nil => rfl
  | cons s ss ih => simp only [List.map_cons, nativeItems, nativeStr, ih]

/-- **C82** Without `doseq` a list of byte strings, whatever bytes they are, is written as the Python
literal of the list: `limited_parse_qsl` gives one pair for every list, with the name and the text of
the literal, and the text determines the list (`C82_lists_distinct`). -/
theorem C82_lists {q : List (PyStr × List Bytes)} {ks : List UStr}
    (hk : List.Forall₂ (fun p u => ∃ b, TextOf p.1 u b) q ks) :
    ∃ t ps, urlencode pyCodecs (q.map fun p => (p.1, .list (p.2.map fun s => some (.b s)))) false = .ok t ∧
      limitedParseQsl pyCodecs (Py.toU t) true b!"utf-8" none = .ok ps ∧ ps.map Prod.fst = ks ∧
      List.Forall₂ (fun p r => ∃ l, r.2 = Py.toU l ∧ ListLiteral l p.2) q ps := by
  have main : ∃ pr ts ps, prepareAll (q.map fun p => (p.1, .list (p.2.map fun s => some (.b s)))) = .ok pr ∧
      encodeParams pyCodecs false pr = .ok ts ∧ Pieces (fun b u => pyCodecs.decodeReplace b!"utf-8" b = .ok u) ps ts ∧
      ps.map Prod.fst = ks ∧ List.Forall₂ (fun p r => ∃ l, r.2 = Py.toU l ∧ ListLiteral l p.2) q ps := by
    induction hk with
    | nil => exact ⟨[], [], [], rfl, rfl, .nil, rfl, .nil⟩
    | @cons p u q ks hp _ ih =>
      obtain ⟨pr, ts, ps, h1, h2, h3, h4, h5⟩ := ih
      obtain ⟨b, hb⟩ := hp
      obtain ⟨kt, k1, k2⟩ := urlquotePlus_form hb
      refine ⟨(p.1, .many p.2) :: pr, (kt ++ 61 :: quotePlus (reprList p.2)) :: ts, (u, Py.toU (reprList p.2)) :: ps,
        ?_, ?_, ?_, ?_, ?_⟩
      · simp only [List.map_cons, prepareAll, prepareValue, nativeItems_bytes, h1]
      · simp only [encodeParams, encodeParam, k1, h2, Bool.false_eq_true, if_false, List.singleton_append]
      · exact .cons k2 (quotePlus_form _) (py_dec hb.utf8) (py_dec (utf8_ascii (reprList_ascii p.2))) h3
      · rw [List.map_cons, h4]
      · exact .cons ⟨_, rfl, reprList_literal _⟩ h5
  obtain ⟨pr, ts, ps, h1, h2, h3, h4, h5⟩ := main
  refine ⟨joinAmp ts, ps, by simp only [urlencode, h1, h2], ?_, h4, h5⟩
  exact C52_parse pyCodecs _ (py_asciiCompat lookup_utf8) _ _ _ h3 (joinAmp_joined ts)

/-- **C82** So different lists are never written alike. -/
theorem C82_lists_distinct (k : PyStr) (u : UStr) (b : Bytes) (hk : TextOf k u b) (ss ss' : List Bytes)
    (h : urlencode pyCodecs [(k, .list (ss.map fun s => some (.b s)))] false =
      urlencode pyCodecs [(k, .list (ss'.map fun s => some (.b s)))] false) : ss = ss' := by
  obtain ⟨t, ps, h1, h2, _, h4⟩ := C82_lists (q := [(k, ss)]) (ks := [u]) (.cons ⟨b, hk⟩ .nil)
  obtain ⟨t', ps', h1', h2', _, h4'⟩ := C82_lists (q := [(k, ss')]) (ks := [u]) (.cons ⟨b, hk⟩ .nil)
  simp only [List.map_cons, List.map_nil] at h1 h1'
  rw [h1, h1'] at h
  cases h
  rw [h2] at h2'
  cases h2'
  cases h4 with
  | cons a _ =>
    cases h4' with
    | cons a' _ =>
      obtain ⟨l, e, hl⟩ := a
      obtain ⟨l', e', hl'⟩ := a'
      rw [e] at e'
      rw [show l = l' from List.map_injective_iff.2 (fun _ _ h => UInt8.toNat_inj.1 h) e'] at hl
      exact listLiteral_inj hl hl'

/-- A quote, a backslash and a byte outside ASCII. -/
example : (urlencode pyCodecs [(.b b!"k", .list [some (.b (b!"'\"" ++ [0xE9])), some (.b b!"\\n")])] false).toOption =
    some b!"k=%5B%27%5C%27%22%5Cxe9%27%2C+%27%5C%5Cn%27%5D" := by decide +kernel

end Verif
