import Verif.Spec.Form
import Verif.Proofs.Names
import Verif.Proofs.ParseInv
/-! Parsing a rendered form. -/

namespace Verif
open Spec

/-! ### The header of a rendered part -/

theorem find_cons_ne {p s : Bytes} {c d : UInt8} (h : c ≠ d) :
    Py.find (c :: p) (d :: s) = (Py.find (c :: p) s).map (· + 1) := by
  rw [Py.find]
  simp [List.isPrefixOf, h]

theorem find_skip {p l s : Bytes} {c : UInt8} (h : c ∉ l) :
    Py.find (c :: p) (l ++ s) = (Py.find (c :: p) s).map (· + l.length) := by
  induction l with
  | nil => simp
  | cons d t ih =>
    simp only [List.mem_cons, not_or] at h
    rw [List.cons_append, find_cons_ne h.1, ih h.2, Option.map_map]
    congr 1

theorem find_head : ∀ (ls : List Bytes) (c : Bytes), (∀ l ∈ ls, l ≠ [] ∧ 13 ∉ l) →
    Py.find b!"\r\n\r\n" (ls.flatMap (fun l => b!"\r\n" ++ l) ++ b!"\r\n\r\n" ++ c) =
      some (ls.flatMap (fun l => b!"\r\n" ++ l)).length := by
  intro ls
  induction ls with
  | nil => intro c _; simp [Py.find, List.isPrefixOf]
  | cons l ls ih =>
    intro c h
    obtain ⟨h1, h2⟩ := h l (by simp)
    have := ih c (fun l hl => h l (by simp [hl]))
    simp only [List.flatMap_cons, List.append_assoc] at this ⊢
    generalize ls.flatMap (fun l => b!"\r\n" ++ l) = T at *
    cases l with
    | nil => exact absurd rfl h1
    | cons x l =>
      simp only [List.mem_cons, not_or] at h2
      have e : b!"\r\n" ++ (x :: l ++ (T ++ (b!"\r\n\r\n" ++ c))) =
          13 :: 10 :: x :: (l ++ (T ++ (b!"\r\n\r\n" ++ c))) := rfl
      rw [e, Py.find]
      have hp : List.isPrefixOf b!"\r\n\r\n" (13 :: 10 :: x :: (l ++ (T ++ (b!"\r\n\r\n" ++ c)))) = false := by
        simp [List.isPrefixOf, h2.1]
      rw [hp]
      simp only [Bool.false_eq_true, if_false]
      rw [show ([13, 10, 13, 10] : Bytes) = 13 :: [10, 13, 10] from rfl] at this ⊢
      rw [find_cons_ne (by decide)]
      have := find_skip (p := [10, 13, 10]) (l := x :: l) (s := T ++ (b!"\r\n\r\n" ++ c)) (c := 13)
        (by simp [h2.1, h2.2])
      rw [List.cons_append] at this
      rw [this]
      simp_all
      omega

theorem splitPair_skip {l s : Bytes} (h : 13 ∉ l) :
    Py.splitPair 13 10 (l ++ s) = (l ++ (Py.splitPair 13 10 s).headD []) :: (Py.splitPair 13 10 s).tail := by
  have hne : ∀ s : Bytes, Py.splitPair 13 10 s ≠ [] := by
    intro s
    unfold Py.splitPair
    split
    · simp
    · simp
    · split
      · simp
      · split <;> simp
  induction l with
  | nil =>
    have := hne s
    rw [List.nil_append]
    cases hs : Py.splitPair 13 10 s with
    | nil => exact absurd hs this
    | cons a b => rfl
  | cons x t ih =>
    simp only [List.mem_cons, not_or] at h
    have ih := ih h.2
    rw [List.cons_append]
    cases hts : t ++ s with
    | nil =>
      obtain ⟨rfl, rfl⟩ := List.append_eq_nil_iff.1 hts
      simp [Py.splitPair]
    | cons y u =>
      rw [Py.splitPair, if_neg (by rintro ⟨rfl, _⟩; exact h.1 rfl), ← hts, ih]
      simp

theorem splitPair_head : ∀ (ls : List Bytes), (∀ l ∈ ls, 13 ∉ l) →
    Py.splitPair 13 10 (ls.flatMap (fun l => b!"\r\n" ++ l)) = [] :: ls := by
  intro ls
  induction ls with
  | nil => intro _; rfl
  | cons l ls ih =>
    intro h
    have ih := ih (fun l hl => h l (by simp [hl]))
    simp only [List.flatMap_cons, List.append_assoc]
    generalize ls.flatMap (fun l => b!"\r\n" ++ l) = T at *
    change Py.splitPair 13 10 (13 :: 10 :: (l ++ T)) = _
    rw [Py.splitPair, if_pos ⟨rfl, rfl⟩, splitPair_skip (h l (by simp)), ih]
    simp

theorem escape_no13 (v : Bytes) (h : 13 ∉ v) : 13 ∉ escapeQuoted v := by
  induction v with
  | nil => simp [escapeQuoted]
  | cons c t ih =>
    simp only [List.mem_cons, not_or] at h
    unfold escapeQuoted
    split <;> simp [h.1, ih h.2]

theorem paramName_name : ParamName b!"name" := by
  constructor <;> simp

theorem paramName_filename : ParamName b!"filename" := by
  constructor <;> simp

theorem lines_ok {boundary : Bytes} {it : FormItem} (h : it.Ok boundary) :
    ∀ l ∈ it.lines, l ≠ [] ∧ 13 ∉ l := by
  have h13 := h.oneLine
  have hk := h.kind
  cases it with
  | field n v =>
    intro l hl
    simp only [FormItem.lines, List.mem_singleton] at hl
    subst hl
    simp only [FormItem.name] at h13
    simp [renderParams, escape_no13 n h13]
  | file n fn ct c =>
    intro l hl
    simp only [FormItem.name] at h13
    have hf : 13 ∉ fn := fun hx => (hk.2.2.2.2.2.2.1 13 hx).1 rfl
    have hc : 13 ∉ ct := fun hx => (hk.2.2.2.2.2.2.2 13 hx).2.1 rfl
    simp only [FormItem.lines, List.mem_cons, List.not_mem_nil, or_false] at hl
    rcases hl with rfl | rfl
    · simp [renderParams, escape_no13 n h13, escape_no13 fn hf]
    · simp [hc]

/-- What the parser makes of the header of a rendered part. -/
def HeadOf (it : FormItem) (t : ItemType) (md : MetaData) : Prop :=
  ∃ d, partName md = some (d, .b it.name) ∧ transferEnc md = none ∧
    match it with
    | .field _ _ => t = .field ∧ md.get? b!"content-type" = none
    | .file _ fn _ _ => t = .file ∧ d.get? b!"filename" = some (.b fn)

theorem partHeaders_form (C : Codecs) {boundary : Bytes} {it : FormItem} (h : it.Ok boundary) :
    ∃ t md, partHeaders C ([] :: it.lines) .raw [] = .ok (t, md) ∧ HeadOf it t md := by
  have hk := h.kind
  have e0 : parsePartHeader C [] = .error .valueError := rfl
  cases it with
  | field n v =>
    obtain ⟨d, hd, hg⟩ := C16_quoted_round_trip C b!"Content-Disposition: form-data" [(b!"name", n)]
      (by decide) (by simp [paramName_name]) hk.2
    have e1 : parsePartHeader C (b!"Content-Disposition: form-data" ++ renderParams [(b!"name", n)]) =
        .ok (b!"content-disposition", b!" form-data", d) := by
      unfold parsePartHeader
      rw [hd]
      rfl
    have hfn : d.get? b!"filename" = none := by rw [hg]; rfl
    have hnm : d.get? b!"name" = some (.b n) := by rw [hg]; rfl
    refine ⟨.field, [(b!"content-disposition", b!" form-data", d)], ?_, d, ?_, rfl, rfl, rfl⟩
    · simp only [FormItem.lines, partHeaders, e0, e1, Exc.isValueError, if_true, hfn]
      rfl
    · simp [partName, Dict.get?, hnm, FormItem.name]
  | file n fn ct c =>
    obtain ⟨h1, h2, h3, h4, h5, h6, h7, h8⟩ := hk
    obtain ⟨d, hd, hg⟩ := C16_quoted_round_trip C b!"Content-Disposition: form-data"
      [(b!"name", n), (b!"filename", fn)]
      (by decide) (by simp [paramName_name, paramName_filename]) h2
    have e1 : parsePartHeader C (b!"Content-Disposition: form-data" ++
        renderParams [(b!"name", n), (b!"filename", fn)]) =
        .ok (b!"content-disposition", b!" form-data", d) := by
      unfold parsePartHeader
      rw [hd]
      rfl
    have hfn : d.get? b!"filename" = some (.b fn) := by rw [hg]; rfl
    have hnm : d.get? b!"name" = some (.b n) := by rw [hg]; rfl
    obtain ⟨d2, hd2, _⟩ := C16_quoted_round_trip C (b!"Content-Type: " ++ ct) []
      (by
        refine ⟨?_, ?_, ?_⟩
        · simp; exact fun hx => (h8 _ hx).2.2.1 rfl
        · simp; exact fun hx => (h8 _ hx).2.2.2 rfl
        · intro x hx
          rcases List.mem_append.1 hx with hx | hx
          · clear * - hx; revert x; decide
          · exact (h8 x hx).1)
      (by simp) (by simp [Separable])
    obtain ⟨v, e2⟩ : ∃ v, parsePartHeader C (b!"Content-Type: " ++ ct) = .ok (b!"content-type", v, d2) := by
      unfold parsePartHeader
      rw [show b!"Content-Type: " ++ ct = b!"Content-Type: " ++ ct ++ renderParams [] by simp [renderParams], hd2]
      have : Py.strip (b!"Content-Type: " ++ ct) = b!"Content-Type" ++ 58 ::
          ((32 :: ct).reverse.dropWhile Py.isSpace).reverse := by
        have := strip_mid (p := Py.isSpace) (c := 58) (by decide) b!"Content-Type" (32 :: ct)
        exact this
      rw [this]
      simp only [Py.lower, List.map_append, List.map_cons]
      generalize List.map Py.lowerByte ((32 :: ct).reverse.dropWhile Py.isSpace).reverse = v at *
      exact ⟨v, rfl⟩
    refine ⟨.file, [(b!"content-disposition", b!" form-data", d), (b!"content-type", v, d2)], ?_, d, ?_, rfl, rfl,
      hfn⟩
    · simp only [FormItem.lines, partHeaders, e0, e1, e2, Exc.isValueError, if_true, hfn]
      simp [PyStr.truthy, h4, Dict.set]
    · simp [partName, Dict.get?, hnm, FormItem.name]

theorem partHead_form (C : Codecs) {boundary : Bytes} {it : FormItem} (h : it.Ok boundary) :
    (∀ e, ¬ HeadErr C it.text e) ∧
    ∀ t md content, PartHead C it.text t md content → HeadOf it t md ∧ content = it.data := by
  obtain ⟨t0, md0, hp, hh⟩ := partHeaders_form C h
  have hlen : it.text.take 1024 = it.head ++ b!"\r\n\r\n" ++ it.data.take (1024 - (it.head.length + 4)) := by
    have := h.short
    unfold FormItem.text
    rw [List.take_append, List.take_of_length_le (by simp; omega)]
    congr 2
    simp
  have hf : Py.find b!"\r\n\r\n" (it.text.take 1024) = some it.head.length := by
    rw [hlen]; exact find_head _ _ (lines_ok h)
  have htk : it.text.take it.head.length = it.head := by simp [FormItem.text]
  have hsp : Py.splitPair 13 10 (it.text.take it.head.length) = [] :: it.lines := by
    rw [htk]; exact splitPair_head _ (fun l hl => (lines_ok h l hl).2)
  have ht : t0 ≠ .raw := by
    obtain ⟨d, _, _, hm⟩ := hh
    cases it <;> simp_all
  constructor
  · rintro e ⟨i, h1, h2⟩
    rw [hf, Option.some.injEq] at h1
    rw [← h1, hsp, hp] at h2
    simp at h2
  · intro t md content hP
    obtain ⟨rfl, rfl, rfl⟩ := hP.inv hf (by rw [hsp]; exact hp) ht
    refine ⟨hh, ?_⟩
    unfold FormItem.text
    rw [show it.head.length + 4 = (it.head ++ b!"\r\n\r\n").length by simp]
    simp only [List.drop_left]

/-! ### Cutting a rendered body -/

theorem cut_form {boundary text rest : Bytes} (h13 : 13 ∉ boundary)
    (hs : ¬ (b!"--" ++ boundary) <:+: text) :
    cut (b!"--" ++ boundary) (text ++ b!"\r\n" ++ (b!"--" ++ boundary) ++ rest) = text ∧
    after (b!"--" ++ boundary) (text ++ b!"\r\n" ++ (b!"--" ++ boundary) ++ rest) = rest := by
  have : Cut (b!"--" ++ boundary) (text ++ b!"\r\n" ++ (b!"--" ++ boundary) ++ rest) text rest := by
    refine .sep (text ++ b!"\r\n") rfl ?_ (by rw [stripEol_two]; simp)
    intro pre' rest' e
    by_contra hc
    simp only [List.length_append, List.length_cons, List.length_nil, not_le] at hc
    have h13' : 13 ∉ b!"--" ++ boundary := by simp [h13]
    have hget : ∀ i, (text ++ b!"\r\n" ++ (b!"--" ++ boundary) ++ rest)[pre'.length + i]? =
        ((b!"--" ++ boundary) ++ rest')[i]? := by
      intro i
      rw [e, List.append_assoc, List.getElem?_append_right (by omega)]
      simp
    by_cases h1 : pre'.length + (b!"--" ++ boundary).length ≤ text.length
    · apply hs
      have h2 : pre' ++ (b!"--" ++ boundary) <+: text := by
        have h3 : pre' ++ (b!"--" ++ boundary) <+: text ++ b!"\r\n" ++ (b!"--" ++ boundary) ++ rest :=
          ⟨rest', e.symm⟩
        have h4 : text <+: text ++ b!"\r\n" ++ (b!"--" ++ boundary) ++ rest := by simp
        exact List.prefix_of_prefix_length_le h3 h4 (by simpa using h1)
      obtain ⟨t, ht⟩ := h2
      exact ⟨pre', t, ht⟩
    · by_cases h2 : pre'.length ≤ text.length
      · apply h13'
        have := hget (text.length - pre'.length)
        rw [show pre'.length + (text.length - pre'.length) = text.length by omega,
          List.getElem?_append_left (by simp)] at this
        refine List.mem_of_getElem? (i := text.length - pre'.length) ?_
        rw [← List.getElem?_append_left (l₂ := rest') (by omega), ← this]
        simp
      · have := hget 0
        have h3 : pre'.length = text.length + 1 := by omega
        rw [h3] at this
        simp at this
  exact ⟨(Cut_unique this).1.symm, (Cut_unique this).2.symm⟩

theorem cut_first {sep rest : Bytes} : cut sep (sep ++ rest) = [] ∧ after sep (sep ++ rest) = rest := by
  have : Cut sep (sep ++ rest) [] rest := .sep [] rfl (by simp) rfl
  exact ⟨(Cut_unique this).1.symm, (Cut_unique this).2.symm⟩

theorem cut_last {sep D : Bytes} (h : ¬ sep <:+: D) : cut sep D = D ∧ after sep D = [] := by
  have : Cut sep D D [] := .nosep h rfl rfl
  exact ⟨(Cut_unique this).1.symm, (Cut_unique this).2.symm⟩

end Verif
