import Verif.Props.ExtendedBoundary
import Verif.Props.Described
import Verif.Props.Reading
import Verif.Props.Trim
/-!
# Forms whose parts have any header, with parameters in either notation (C133)
-/

namespace Verif
open Spec

namespace Spec

/-- A field of the header of a part; the parameters are byte strings, or texts in the extended notation. -/
structure ExtField where
  name : Bytes
  value : Bytes
  params : List (Bytes × PyStr) := []

/-- How a field is written. -/
structure ExtField.Line (C : Codecs) (f : ExtField) (line : Bytes) : Prop where
  name : ∀ c ∈ f.name, Visible c ∧ c ∉ b!":;\""
  value : f.value ≠ [] ∧ ∀ c ∈ f.value, Visible c ∧ c ∉ b!";\""
  oneLine : 13 ∉ line
  text : ∃ s, ExtMedia C f.value f.params s ∧ line = f.name ++ b!": " ++ s

/-- The field with this name (in lower case) that counts. -/
def extNamed (fs : List ExtField) (n : Bytes) : Option ExtField := fs.reverse.find? (fun f => Py.lower f.name = n)

/-- The dictionary of the parameters of a field; names are in lower case, the last value of a name counts. -/
def paramDict (ps : List (Bytes × PyStr)) : Dict Bytes PyStr :=
  (ps.map (fun p => (Py.lower p.1, p.2))).foldl (fun (d : Dict Bytes PyStr) p => d.set p.1 p.2) []

/-- The text of a part: its header, an empty line, its content. -/
structure PartText (C : Codecs) (boundary : Bytes) (fs : List ExtField) (content text : Bytes) : Prop where
  written : ∃ lines, List.Forall₂ (ExtField.Line C) fs lines ∧
    (lines.flatMap (fun l => b!"\r\n" ++ l)).length + 4 ≤ 1024 ∧
    text = lines.flatMap (fun l => b!"\r\n" ++ l) ++ b!"\r\n\r\n" ++ content
  noSep : ¬ (b!"--" ++ boundary) <:+: text

/-- The white space of a text. -/
def uniBlanks : UStr :=
  [9, 10, 11, 12, 13, 28, 29, 30, 31, 32, 0x85, 0xa0, 0x1680, 0x180e, 0x2000, 0x2001, 0x2002, 0x2003, 0x2004, 0x2005,
    0x2006, 0x2007, 0x2008, 0x2009, 0x200a, 0x2028, 0x2029, 0x202f, 0x205f, 0x3000]

/-- The name that a parameter gives: without white space at the ends, and in ASCII if it is a text. -/
inductive Named : PyStr → Bytes → Prop where
  | bytes {s t} : TrimmedOf byteBlanks s t → Named (.b s) t
  | text {s : UStr} {t : Bytes} : TrimmedOf uniBlanks s (t.map UInt8.toNat) → (∀ c ∈ t, c < 128) → Named (.u s) t

/-- The file name that a parameter gives, in the cases in which it is kept as it is. -/
structure FileNamed (p : PyStr) (t : Bytes) : Prop where
  gives : p = .b t ∨ (p = .u (t.map UInt8.toNat) ∧ ∀ c ∈ t, c < 128)
  nonempty : t ≠ []
  short : t.length ≤ 255
  trimmed : Py.strip t = t
  plain : ∀ x ∈ t, x ≠ 13 ∧ x ≠ 38 ∧ x ≠ 47 ∧ x ≠ 92

/-- The content type, the transfer encoding and the parameters of the content type of a part. -/
def typeOf (fs : List ExtField) : Bytes := ((extNamed fs b!"content-type").map (fun f => Py.lower f.value)).getD []
@[inherit_doc typeOf]
def encodingOf (fs : List ExtField) : Option Bytes :=
  (extNamed fs b!"content-transfer-encoding").map (fun f => Py.lower f.value)
@[inherit_doc typeOf]
def extraOf (fs : List ExtField) : Dict Bytes PyStr :=
  ((extNamed fs b!"content-type").map (fun f => paramDict f.params)).getD []

/-- What a part adds to a form. -/
inductive Said where
  | field (name : Bytes) (size : Nat) (item : PostItem)
  | file (name fileName content : Bytes)

/-- A part with this header and content adds this to the form. -/
inductive Adds (fs : List ExtField) (content : Bytes) : Said → Prop where
  | field {cd p name v} : extNamed fs b!"content-disposition" = some cd → extParam cd.params b!"name" = some p →
      Named p name → (∀ c ∈ name, c < 128) →
      (∀ q, extParam cd.params b!"filename" = some q → q = .b [] ∨ q = .u []) → FieldData (encodingOf fs) content v →
      Adds fs content (.field name content.length ⟨v, typeOf fs, (encodingOf fs).getD [], extraOf fs⟩)
  | file {cd p q name fn data} : extNamed fs b!"content-disposition" = some cd → extParam cd.params b!"name" = some p →
      Named p name → name ≠ [] → extParam cd.params b!"filename" = some q → FileNamed q fn →
      FileData (encodingOf fs) content data → data ≠ [] → Adds fs content (.file name fn data)

/-- The header of a part gives a name or a file name outside ASCII, in the extended notation. -/
inductive Foreign (fs : List ExtField) : Prop where
  | name {cd s t} : extNamed fs b!"content-disposition" = some cd → extParam cd.params b!"name" = some (.u s) →
      TrimmedOf uniBlanks s t → (∃ c ∈ t, 128 ≤ c) → Foreign fs
  | fileName {cd p name s} : extNamed fs b!"content-disposition" = some cd → extParam cd.params b!"name" = some p →
      Named p name → extParam cd.params b!"filename" = some (.u s) → (∃ c ∈ s, 128 ≤ c) → Foreign fs

/-- Name, size and value of the fields. -/
def saidFields (l : List Said) : List (Bytes × Nat × PostItem) :=
  l.filterMap (fun x => match x with
    | .field n k i => some (n, k, i)
    | .file .. => none)

/-- Name, file name and content of the files. -/
def saidFiles (l : List Said) : List (Bytes × Bytes × Bytes) :=
  l.filterMap (fun x => match x with
    | .field .. => none
    | .file n fn c => some (n, fn, c))

/-- The form is within the limits. -/
structure SaidInLimits (S : Settings) (l : List Said) : Prop where
  count : ∀ n, S.maxFields = some n → ((saidFields l).length : Int) ≤ n
  memory : ∀ n, S.dataMaxMemory = some n →
    ((((saidFields l).map (fun p => p.2.1 + p.1.length + 2)).sum : Nat) : Int) ≤ n

/-- `POST` and `FILES`, with name, size and content of each file. -/
def saidView (l : List Said) : MVD PostItem × MVD (Bytes × Nat × Option Bytes) :=
  ((saidFields l).foldl (fun d p => MVD.append d p.1 p.2.2) [],
   (saidFiles l).foldl (fun d p => MVD.append d p.1 (p.2.1, p.2.2.length, some p.2.2)) [])

end Spec

theorem isUniSpace_iff (c : Nat) : PyStr.isUniSpace c = true ↔ c ∈ uniBlanks := by
  unfold PyStr.isUniSpace uniBlanks
  simp only [Bool.or_eq_true, Bool.and_eq_true, decide_eq_true_eq, List.mem_cons, List.not_mem_nil, or_false]
  omega

theorem Spec.Named.text_ok {p : PyStr} {name : Bytes} (h : Named p name) : forceText p.strip = .ok name := by
  cases h with
  | bytes h => simp [PyStr.strip, forceText, (C120_trim_bytes _ _).2 h]
  | text h ha =>
    simp only [PyStr.strip, (stripBy_iff _ _ isUniSpace_iff _ _).2 h, forceText]
    rw [if_pos (by
      simp only [List.all_eq_true, List.mem_map, decide_eq_true_eq]
      rintro _ ⟨c, hc, rfl⟩
      exact UInt8.lt_iff_toNat_lt.1 (ha c hc))]
    exact congrArg Except.ok (toU_ofNat name)

theorem forceText_foreign {s : UStr} (h : ∃ c ∈ s, 128 ≤ c) : forceText (.u s) = .error .unicodeEncodeError := by
  obtain ⟨c, hc, h⟩ := h
  simp only [forceText]
  rw [if_neg]
  simp only [List.all_eq_true, decide_eq_true_eq, not_forall]
  exact ⟨c, hc, by omega⟩

theorem Spec.FileNamed.ok {p : PyStr} {t : Bytes} (h : FileNamed p t) : p.truthy = true ∧ fileNameOf p = .ok t := by
  have h0 := fileNameOf_plain h.plain h.trimmed
  rcases h.gives with rfl | ⟨rfl, ha⟩
  · exact ⟨by simp [PyStr.truthy, h.nonempty], h0⟩
  · refine ⟨by simp [PyStr.truthy, h.nonempty], ?_⟩
    have : forceText (.u (t.map UInt8.toNat)) = forceText (.b t) := by
      simp only [forceText]
      rw [if_pos (by
        simp only [List.all_eq_true, List.mem_map, decide_eq_true_eq]
        rintro _ ⟨c, hc, rfl⟩
        exact UInt8.lt_iff_toNat_lt.1 (ha c hc))]
      exact congrArg Except.ok (toU_ofNat t)
    unfold fileNameOf at h0 ⊢
    rw [this]; exact h0

/-- A media type with parameters in either notation; the dictionary. -/
theorem parseHeader_dict (C : Codecs) {type s : Bytes} {ps : List (Bytes × PyStr)}
    (ht : 34 ∉ type ∧ 59 ∉ type ∧ ∀ c ∈ type, c < 128) (h : ExtMedia C type ps s) :
    parseHeader C s = .ok (Py.lower (Py.strip type), paramDict ps) := by
  obtain ⟨raws, hS, _, h1⟩ := extMedia_split ⟨ht.1, ht.2.1⟩ h
  have ha : Py.isAscii (Py.lower (Py.strip type)) = true := by
    rw [lower_ascii]
    unfold Py.isAscii
    simp only [List.all_eq_true, decide_eq_true_eq]
    intro c hc
    exact ht.2.2 c (strip_subset _ c hc)
  rw [parseHeader_of_split C hS, h1, if_neg (by simp [ha])]
  rfl

theorem paramDict_get (ps : List (Bytes × PyStr)) (n : Bytes) : (paramDict ps).get? n = extParam ps n := by
  unfold paramDict
  rw [foldl_set_getAny]
  simp [extParam, Dict.get?]

theorem extMedia_before {C : Codecs} (p : Bytes) {type s : Bytes} {ps : List (Bytes × PyStr)} (h : ExtMedia C type ps s) :
    ExtMedia C (p ++ type) ps (p ++ s) := by
  induction h with
  | nil => exact .nil
  | plain _ h1 h2 h3 ih =>
    have := ExtMedia.plain ih h1 h2 h3
    simpa [List.append_assoc] using this
  | ext _ h1 h2 h3 h4 ih =>
    have := ExtMedia.ext ih h1 h2 h3 h4
    simpa [List.append_assoc] using this

theorem parsePartHeader_ext (C : Codecs) {f : ExtField} {line : Bytes} (h : f.Line C line) :
    parsePartHeader C line = .ok (Py.lower f.name, 32 :: Py.lower f.value, paramDict f.params) := by
  obtain ⟨h1, ⟨h2, h3⟩, -, s, h4, rfl⟩ := h
  have e1 := parseHeader_dict C (type := f.name ++ b!": " ++ f.value) (by
    refine ⟨?_, ?_, ?_⟩
    · simp only [List.mem_append, not_or]
      exact ⟨⟨fun hc => (h1 _ hc).2 (by decide), by decide⟩, fun hc => (h3 _ hc).2 (by decide)⟩
    · simp only [List.mem_append, not_or]
      exact ⟨⟨fun hc => (h1 _ hc).2 (by decide), by decide⟩, fun hc => (h3 _ hc).2 (by decide)⟩
    · intro c hc
      simp only [List.mem_append] at hc
      rcases hc with (hc | hc) | hc
      · exact visible_ascii (h1 c hc).1
      · revert c; decide
      · exact visible_ascii (h3 c hc).1) (extMedia_before (f.name ++ b!": ") h4)
  have hst : Py.strip (f.name ++ b!": " ++ f.value) = f.name ++ b!": " ++ f.value := by
    have := strip_pad (l := []) (v := f.name ++ b!": " ++ f.value) (r := []) (by simp) (by
      intro c hc
      rcases hc with hc | hc
      · cases hn : f.name with
        | nil =>
          rw [hn] at hc
          have : c = 58 := by
            have : some (58 : UInt8) = some c := hc
            simpa using this.symm
          rw [this]; decide
        | cons x t =>
          rw [hn] at hc
          have : x = c := by simpa using hc
          exact visible_not_space (this ▸ (h1 x (by simp [hn])).1)
      · have : c ∈ f.value := by
          rw [List.getLast?_append_of_ne_nil _ h2] at hc
          exact List.mem_of_getLast? hc
        exact visible_not_space (h3 c this).1)
    simpa using this
  unfold parsePartHeader
  rw [e1, hst]
  simp only [Py.lower, List.map_append]
  have : (58 : UInt8) ∉ List.map Py.lowerByte f.name := by
    intro hm
    obtain ⟨c, hc, hcc⟩ := List.mem_map.1 hm
    have : c = 58 := lowerByte_ne (by decide) hcc
    exact (h1 c hc).2 (by rw [this]; decide)
  have := splitFirst_append (c := 58) (r := 32 :: List.map Py.lowerByte f.value) this
  have e : List.map Py.lowerByte f.name ++ List.map Py.lowerByte b!": " ++ List.map Py.lowerByte f.value =
      List.map Py.lowerByte f.name ++ 58 :: 32 :: List.map Py.lowerByte f.value := by
    simp [Py.lowerByte]
  rw [e, this]

/-- The value and the parameters of a field, as they are kept. -/
def fieldEntry (f : ExtField) : Bytes × Dict Bytes PyStr := (32 :: Py.lower f.value, paramDict f.params)

/-- The kind of a part. -/
def extKind (f : ExtField) : ItemType :=
  if ((extParam f.params b!"filename").map PyStr.truthy).getD false then .file else .field

theorem partHeaders_ext (C : Codecs) : ∀ {fs : List ExtField} {lines : List Bytes}, List.Forall₂ (ExtField.Line C) fs lines →
    ∀ (t : ItemType) (md : MetaData) (before : List ExtField), (∀ k, md.get? k = (extNamed before k).map fieldEntry) →
      ∃ t' md', partHeaders C lines t md = .ok (t', md') ∧ (∀ k, md'.get? k = (extNamed (before ++ fs) k).map fieldEntry) ∧
        t' = ((extNamed fs b!"content-disposition").map extKind).getD t := by
  intro fs lines h
  induction h with
  | nil => intro t md before hb; exact ⟨t, md, rfl, by simpa using hb, rfl⟩
  | @cons f line fs lines h1 _ ih =>
    intro t md before hb
    have e1 := parsePartHeader_ext C h1
    unfold partHeaders
    rw [e1]
    simp only
    obtain ⟨t', md', i1, i2, i3⟩ := ih (if Py.lower f.name = b!"content-disposition" then
        (if (((paramDict f.params).get? b!"filename").map PyStr.truthy).getD false then .file else .field) else t)
      (md.set (Py.lower f.name) (32 :: Py.lower f.value, paramDict f.params)) (before ++ [f]) (by
        intro k
        unfold extNamed
        simp only [List.reverse_append, List.reverse_cons, List.reverse_nil, List.nil_append, List.singleton_append, List.find?_cons]
        by_cases hk : Py.lower f.name = k
        · simp only [hk, decide_true]
          rw [Dict.get?_set, if_pos rfl]
          rfl
        · simp only [hk, decide_false]
          rw [Dict.get?_set, if_neg hk]
          exact hb k)
    refine ⟨t', md', i1, by simpa using i2, ?_⟩
    rw [i3]
    unfold extNamed
    simp only [List.reverse_cons, List.find?_append, List.find?_cons, List.find?_nil]
    cases hf : List.find? (fun f => decide (Py.lower f.name = b!"content-disposition")) fs.reverse with
    | some g => simp
    | none =>
      simp only [Option.none_or]
      by_cases hk : Py.lower f.name = b!"content-disposition"
      · simp [hk, extKind, paramDict_get]
      · simp [hk]

/-- What is read of a part. -/
theorem partHead_ext (C : Codecs) {boundary : Bytes} {fs : List ExtField} {content text : Bytes}
    (h : PartText C boundary fs content text) {cd : ExtField} (hcd : extNamed fs b!"content-disposition" = some cd) :
    ∃ md, PartHead C text (extKind cd) md content ∧ ∀ k, md.get? k = (extNamed fs k).map fieldEntry := by
  obtain ⟨lines, hl, hs, rfl⟩ := h.written
  have hok : ∀ l ∈ lines, l ≠ [] ∧ 13 ∉ l := by
    intro l hm
    obtain ⟨f, hf⟩ := forall₂_left hl.flip l hm
    refine ⟨?_, hf.oneLine⟩
    obtain ⟨s, -, rfl⟩ := hf.text
    simp
  obtain ⟨t0, md0, e1, e2, e3⟩ := partHeaders_ext C hl .raw [] [] (by intro k; rfl)
  rw [hcd] at e3
  simp only [List.nil_append, Option.map_some, Option.getD_some] at e2 e3
  subst e3
  refine ⟨md0, ?_, e2⟩
  generalize hH : lines.flatMap (fun l => b!"\r\n" ++ l) = H at *
  have hf : Py.find b!"\r\n\r\n" ((H ++ b!"\r\n\r\n" ++ content).take 1024) = some H.length := by
    rw [List.take_append, List.take_of_length_le (by simp; omega), ← hH]
    exact find_head _ _ hok
  have htk : (H ++ b!"\r\n\r\n" ++ content).take H.length = H := by simp
  have e0 : parsePartHeader C [] = .error .valueError := rfl
  have hp := PartHead.header (C := C) (P := H ++ b!"\r\n\r\n" ++ content) (t := extKind cd) (md := md0) hf (by
    rw [htk, ← hH, splitPair_head _ (fun l hm => (hok l hm).2)]
    simp only [partHeaders, e0, Exc.isValueError, if_true]
    exact e1) (by unfold extKind; split <;> simp)
  rwa [show H.length + 4 = (H ++ b!"\r\n\r\n").length by simp, List.drop_left] at hp

theorem typeOf_md {fs : List ExtField} {md : MetaData} (hv : ∀ f ∈ fs, ∀ c ∈ f.value, Visible c)
    (h : ∀ k, md.get? k = (extNamed fs k).map fieldEntry) :
    Py.ustrip ((md.get? b!"content-type").getD ([], [])).1 = typeOf fs ∧
    ((md.get? b!"content-type").getD ([], [])).2 = extraOf fs ∧ transferEnc md = encodingOf fs := by
  have hm : ∀ {k f}, extNamed fs k = some f → ∀ c ∈ f.value, Visible c := fun hf => hv _ (by
    have := List.mem_of_find?_eq_some hf
    simpa using this)
  refine ⟨?_, ?_, ?_⟩
  · rw [h, typeOf]
    cases hf : extNamed fs b!"content-type" with
    | none => rfl
    | some f => exact ustrip_value (hm hf)
  · rw [h, extraOf]
    cases extNamed fs b!"content-type" <;> rfl
  · unfold transferEnc
    rw [h, encodingOf]
    cases hf : extNamed fs b!"content-transfer-encoding" with
    | none => rfl
    | some f => exact congrArg some (ustrip_value (hm hf))

/-- What has been read stands for the parts before. -/
structure Spec.HoldsSaid (g : Ghost) (l : List Said) : Prop where
  post : g.post = (saidFields l).foldl (fun d p => MVD.append d p.1 p.2.2) []
  files : g.files ++ g.old.toList = saidFiles l
  keys : g.keys = (saidFields l).length
  bytes : g.bytes = ((saidFields l).map (fun p => p.2.1 + p.1.length + 2)).sum

theorem Spec.SaidInLimits.left {S : Settings} {a b : List Said} (h : SaidInLimits S (a ++ b)) : SaidInLimits S a := by
  have e : saidFields (a ++ b) = saidFields a ++ saidFields b := List.filterMap_append
  refine ⟨fun n hn => ?_, fun n hn => ?_⟩
  · have := h.count n hn
    rw [e, List.length_append] at this
    omega
  · have := h.memory n hn
    rw [e, List.map_append, List.sum_append] at this
    omega

theorem Spec.PartText.visible {C : Codecs} {boundary : Bytes} {fs : List ExtField} {content text : Bytes}
    (h : PartText C boundary fs content text) : ∀ f ∈ fs, ∀ c ∈ f.value, Visible c := by
  obtain ⟨lines, hl, -, -⟩ := h.written
  intro f hf c hc
  obtain ⟨l, hl⟩ := forall₂_left hl f hf
  exact (hl.value.2 c hc).1

theorem extKind_field {cd : ExtField} (h : ∀ q, extParam cd.params b!"filename" = some q → q = .b [] ∨ q = .u []) :
    extKind cd = .field := by
  unfold extKind
  cases hq : extParam cd.params b!"filename" with
  | none => rfl
  | some q => rcases h q hq with rfl | rfl <;> rfl

theorem dispositionFileName_ext (ps : List (Bytes × PyStr)) {q : PyStr} (h : extParam ps b!"filename" = some q)
    (ht : q.truthy = true) : dispositionFileName (paramDict ps) = fileNameOf q := by
  unfold dispositionFileName
  rw [paramDict_get, h]
  simp [ht]

theorem partName_ext {fs : List ExtField} {md : MetaData} (h : ∀ k, md.get? k = (extNamed fs k).map fieldEntry)
    {cd : ExtField} (hcd : extNamed fs b!"content-disposition" = some cd) {p : PyStr}
    (hp : extParam cd.params b!"name" = some p) : partName md = some (paramDict cd.params, p) := by
  unfold partName
  rw [h, hcd]
  simp [fieldEntry, paramDict_get, hp]

/-- One part. -/
theorem partReads_ext {C : Codecs} {S : Settings} (hcs : ∀ n, (∀ c ∈ n, c < 128) → C.strEncode S.defaultCharset n = .ok n)
    {boundary : Bytes} {fs : List ExtField} {content text : Bytes} (h : PartText C boundary fs content text) {x : Said}
    (hx : Adds fs content x) {g : Ghost} {past : List Said} (hg : HoldsSaid g past) (hlim : SaidInLimits S (past ++ [x]))
    (short : Prop) :
    ∃ t md g', PartHead C text t md content ∧ PartReads C S t md content short g.close (.ok g') ∧ HoldsSaid g' (past ++ [x]) := by
  cases hx with
  | @field cd p name v h1 h2 h3 h4 h5 h6 =>
    obtain ⟨md, e1, e2⟩ := partHead_ext C h h1
    obtain ⟨t1, t2, t3⟩ := typeOf_md h.visible e2
    rw [extKind_field h5] at e1
    have hfo : saidFields (past ++ [.field name content.length ⟨v, typeOf fs, (encodingOf fs).getD [], extraOf fs⟩]) =
        saidFields past ++ [(name, content.length, ⟨v, typeOf fs, (encodingOf fs).getD [], extraOf fs⟩)] := by
      simp [saidFields, List.filterMap_append]
    refine ⟨_, md, _, e1, .field (partName_ext e2 h1 h2) h3.text_ok rfl ?_ ?_ (by rw [t3]; exact h6) (hcs name h4)
      (.inr (hcs name h4)), ?_, ?_, ?_, ?_⟩
    · intro k hk
      have := hlim.count k hk
      rw [hfo, List.length_append] at this
      simp only [Ghost.close, hg.keys]
      simpa using this
    · intro k hk
      have := hlim.memory k hk
      rw [hfo, List.map_append, List.sum_append] at this
      simp only [Ghost.close, hg.bytes]
      simp only [List.map_cons, List.map_nil, List.sum_cons, List.sum_nil] at this
      omega
    · simp only [hfo, List.foldl_append, List.foldl_cons, List.foldl_nil, Ghost.close, hg.post, fieldItem, t1, t2, t3]
    · have : saidFiles (past ++ [.field name content.length ⟨v, typeOf fs, (encodingOf fs).getD [], extraOf fs⟩]) =
          saidFiles past := by simp [saidFiles, List.filterMap_append]
      rw [this]
      simpa [Ghost.close] using hg.files
    · simp [hfo, Ghost.close, hg.keys]
    · simp only [hfo, Ghost.close, hg.bytes, List.map_append, List.sum_append, List.map_cons, List.map_nil, List.sum_cons,
        List.sum_nil]
      omega
  | @file cd p q name fn data h1 h2 h3 h4 h5 h6 h7 h8 =>
    obtain ⟨md, e1, e2⟩ := partHead_ext C h h1
    obtain ⟨t1, t2, t3⟩ := typeOf_md h.visible e2
    have hk : extKind cd = .file := by simp [extKind, h5, h6.ok.1]
    rw [hk] at e1
    have hfo : saidFields (past ++ [.file name fn data]) = saidFields past := by
      simp [saidFields, List.filterMap_append]
    refine ⟨_, md, _, e1, .file (partName_ext e2 h1 h2) h3.text_ok rfl
      ((dispositionFileName_ext _ h5 h6.ok.1).trans h6.ok.2) h6.nonempty h4 (by rw [t3]; exact h7) h8, ?_, ?_, ?_, ?_⟩
    · simp [hfo, Ghost.close, hg.post]
    · have : saidFiles (past ++ [.file name fn data]) = saidFiles past ++ [(name, fn, data)] := by
        simp [saidFiles, List.filterMap_append]
      rw [this, ← hg.files]
      simp [Ghost.close]
    · simp [hfo, Ghost.close, hg.keys]
    · simp [hfo, Ghost.close, hg.bytes]

/-- A part with a foreign name. -/
theorem partReads_foreign {C : Codecs} {S : Settings} {boundary : Bytes} {fs : List ExtField} {content text : Bytes}
    (h : PartText C boundary fs content text) (hx : Foreign fs) (g : Ghost) (short : Prop) :
    ∃ t md, PartHead C text t md content ∧ PartReads C S t md content short g (.error .unicodeEncodeError) := by
  cases hx with
  | @name cd s t h1 h2 h3 h4 =>
    obtain ⟨md, e1, e2⟩ := partHead_ext C h h1
    refine ⟨_, md, e1, .badName (partName_ext e2 h1 h2) ?_⟩
    rw [PyStr.strip, (stripBy_iff _ _ isUniSpace_iff _ _).2 h3]
    exact forceText_foreign h4
  | @fileName cd p name s h1 h2 h3 h4 h5 =>
    obtain ⟨md, e1, e2⟩ := partHead_ext C h h1
    have ht : (PyStr.u s).truthy = true := by
      obtain ⟨c, hc, -⟩ := h5
      have : s ≠ [] := by rintro rfl; simp at hc
      simp [PyStr.truthy, this]
    have hk : extKind cd = .file := by simp [extKind, h4, ht]
    refine ⟨_, md, e1, .badFile (partName_ext e2 h1 h2) h3.text_ok hk ?_⟩
    rw [dispositionFileName_ext _ h4 ht]
    simp [fileNameOf, forceText_foreign h5]

/-- A part as it is written, and what it adds. -/
structure Spec.Sent where
  fields : List ExtField
  content : Bytes
  text : Bytes
  said : Said

/-- The part is well written, and adds this. -/
def Spec.Sent.Ok (C : Codecs) (boundary : Bytes) (p : Sent) : Prop :=
  PartText C boundary p.fields p.content p.text ∧ Adds p.fields p.content p.said

/-- A body: a preamble, the first separator, the parts with the separators after them, and the rest. -/
def Spec.sentBody (boundary : Bytes) (pre : Option Bytes) (ps : List Sent) (rest : Bytes) : Bytes :=
  pre.elim [] (· ++ b!"\r\n") ++ (b!"--" ++ boundary ++
    (ps.flatMap (fun p => p.text ++ b!"\r\n" ++ (b!"--" ++ boundary)) ++ rest))

theorem reads_sent {C : Codecs} {S : Settings} (hcs : ∀ n, (∀ c ∈ n, c < 128) → C.strEncode S.defaultCharset n = .ok n)
    {boundary : Bytes} (h13 : 13 ∉ boundary) {rest : Bytes} {res : Except Exc Ghost} : ∀ (todo : List Sent) (past : List Said) (g : Ghost),
      (∀ p ∈ todo, p.Ok C boundary) → HoldsSaid g past → SaidInLimits S (past ++ todo.map Sent.said) →
      (∀ g', HoldsSaid g' (past ++ todo.map Sent.said) → Reads C S (b!"--" ++ boundary) rest g' res) →
      Reads C S (b!"--" ++ boundary) (todo.flatMap (fun p => p.text ++ b!"\r\n" ++ (b!"--" ++ boundary)) ++ rest) g res := by
  intro todo
  induction todo with
  | nil => intro past g _ hg _ h; simpa using h g (by simpa using hg)
  | cons p todo ih =>
    intro past g hok hg hlim h
    obtain ⟨h1, h2⟩ := hok p (by simp)
    rw [List.flatMap_cons, List.append_assoc]
    generalize hr : todo.flatMap (fun p => p.text ++ b!"\r\n" ++ (b!"--" ++ boundary)) ++ rest = rest' at *
    obtain ⟨c1, c2⟩ := cut_form (rest := rest') h13 h1.noSep
    have hlim' : SaidInLimits S ((past ++ [p.said]) ++ todo.map Sent.said) := by simpa using hlim
    obtain ⟨t, md, g', e1, e2, e3⟩ := partReads_ext hcs h1 h2 hg hlim'.left (p.text.length < 1024)
    refine .part (by simp) (by rw [c1]; exact e1) (by rw [c1]; exact e2) ?_
    rw [c2]
    exact ih (past ++ [p.said]) g' (fun q hq => hok q (by simp [hq])) e3 hlim' (fun g'' hg'' => h g'' (by simpa using hg''))

theorem reads_body {C : Codecs} {S : Settings} (hcs : ∀ n, (∀ c ∈ n, c < 128) → C.strEncode S.defaultCharset n = .ok n)
    {boundary : Bytes} (h13 : 13 ∉ boundary) {pre : Option Bytes}
    (hpre : ∀ p, pre = some p → ¬ (b!"--" ++ boundary) <:+: p ∧ ¬ b!"\r\n\r\n" <:+: p ∧ p.length < 1024)
    {rest : Bytes} {res : Except Exc Ghost} (ps : List Sent)
    (hok : ∀ p ∈ ps, p.Ok C boundary) (hlim : SaidInLimits S (ps.map Sent.said))
    (h : ∀ g', HoldsSaid g' (ps.map Sent.said) → Reads C S (b!"--" ++ boundary) rest g' res) :
    Reads C S (b!"--" ++ boundary) (sentBody boundary pre ps rest) ⟨[], [], none, 0, 0⟩ res := by
  have hr := reads_sent hcs h13 ps [] ⟨[], [], none, 0, 0⟩ hok ⟨rfl, rfl, rfl, rfl⟩ hlim h
  unfold sentBody
  generalize ps.flatMap (fun p => p.text ++ b!"\r\n" ++ (b!"--" ++ boundary)) ++ rest = rest' at *
  obtain ⟨P, hP1, hP2, hP3, hP4⟩ : ∃ P : Bytes,
      cut (b!"--" ++ boundary) (pre.elim [] (· ++ b!"\r\n") ++ (b!"--" ++ boundary ++ rest')) = P ∧
      after (b!"--" ++ boundary) (pre.elim [] (· ++ b!"\r\n") ++ (b!"--" ++ boundary ++ rest')) = rest' ∧
      Py.find b!"\r\n\r\n" (P.take 1024) = none ∧ P.length < 1024 := by
    cases pre with
    | none =>
      obtain ⟨c1, c2⟩ := cut_first (sep := b!"--" ++ boundary) (rest := rest')
      exact ⟨[], by simpa using c1, by simpa using c2, by decide, by simp⟩
    | some p =>
      obtain ⟨a1, a2, a3⟩ := hpre p rfl
      obtain ⟨c1, c2⟩ := cut_form (rest := rest') h13 a1
      refine ⟨p, by simpa using c1, by simpa using c2, ?_, a3⟩
      exact Py.find_none_iff_not_infix.2 (fun hc => a2 (hc.trans (List.take_prefix _ _).isInfix))
  refine .part (t := .raw) (md := []) (content := P) (by simp) (by rw [hP1]; exact .noHeader hP3)
    (.unnamed rfl (by rw [hP1]; exact hP4)) ?_
  rw [hP2]
  exact hr

/-- What the parts of a form say, all together. -/
def saidGhost (l : List Said) : Ghost :=
  ⟨(saidFields l).foldl (fun d p => MVD.append d p.1 p.2.2) [], saidFiles l, none,
    ((saidFields l).map (fun p => p.2.1 + p.1.length + 2)).sum, (saidFields l).length⟩

theorem reads_whole {C : Codecs} {S : Settings} (hcs : ∀ n, (∀ c ∈ n, c < 128) → C.strEncode S.defaultCharset n = .ok n)
    {boundary : Bytes} (h13 : 13 ∉ boundary) {pre : Option Bytes} {epi : Bytes} (ha : Around boundary pre epi) (ps : List Sent)
    (hok : ∀ p ∈ ps, p.Ok C boundary) (hlim : SaidInLimits S (ps.map Sent.said)) :
    Reads C S (b!"--" ++ boundary) (sentBody boundary pre ps (b!"--" ++ epi)) ⟨[], [], none, 0, 0⟩
      (.ok (saidGhost (ps.map Sent.said))) := by
  have hhead : ¬ b!"\r\n\r\n" <:+: b!"--" ++ epi := by
    intro hc
    apply ha.epiHead
    obtain ⟨a, b, e⟩ := hc
    match a, e with
    | [], e => simp at e
    | [_], e => simp at e
    | _ :: _ :: a, e =>
      simp only [List.cons_append, List.append_assoc, List.cons.injEq, List.nil_append] at e
      exact ⟨a, b, by simpa using e.2.2⟩
  refine reads_body hcs h13 (fun p hp => ⟨ha.preSep p hp, ha.preHead p hp, ha.preShort p hp⟩) ps hok hlim (fun g' hg => ?_)
  have := Reads.rest (C := C) (S := S) (g := g') (by simp) ha.epiSep hhead
  have e : g'.close = saidGhost (ps.map Sent.said) := by
    rw [saidGhost, ← hg.post, ← hg.files, ← hg.keys, ← hg.bytes]; rfl
  rwa [e] at this

theorem saidGhost_view {C : Codecs} {boundary : Bytes} {ps : List Sent} (hok : ∀ p ∈ ps, p.Ok C boundary) :
    (saidGhost (ps.map Sent.said)).view = saidView (ps.map Sent.said) := by
  simp only [saidGhost, Ghost.view, saidView, Prod.mk.injEq, true_and]
  refine foldl_congr' (fun d p hp => ?_)
  obtain ⟨x, hx, hx2⟩ := List.mem_filterMap.1 hp
  obtain ⟨q, hq1, rfl⟩ := List.mem_map.1 hx
  have h2 := (hok q hq1).2
  cases h : q.said with
  | field => rw [h] at hx2; simp at hx2
  | file n fn c =>
    rw [h] at hx2 h2
    simp only [Option.some.injEq] at hx2
    subst hx2
    cases h2 with
    | file _ _ _ _ _ h6 _ _ => rw [setName_id (fun h => (h6.plain 47 h).2.2.1 rfl) h6.short]

/-- **C133, the part that holds** (missing: names and file names in the extended notation that are not ASCII, see
`C133_refuted`).  A form is read as it is written, whatever header fields the parts have, in whatever order and case, with
parameters quoted, bare or in the extended notation: `POST` and `FILES` have what each part says, in order. -/
theorem C133_written_partial {ρ : Type} [Producer ρ] {L : Lawful ρ} (C : Codecs) (hC : ∀ b, C.Avoids (.stopUpload b))
    (S : Settings) (hS : ∀ k, S.dataMaxMemory = some k → 0 ≤ k) (hq : emptyQueryDict C S = .ok ())
    (hcs : ∀ n, (∀ c ∈ n, c < 128) → C.strEncode S.defaultCharset n = .ok n)
    (os : Os) (hos : ∀ e, os.tempFile e = .ok ()) (fuel64 : Nat) (m : MultiPart) (hc : 1 ≤ m.chunkSize)
    (hl : m.contentLength ≠ 0) (h13 : 13 ∉ m.boundary) (hs : List Builtin) (heap : Heap) (ht : Takes S m.contentLength hs)
    {pre : Option Bytes} {epi : Bytes} (ha : Around m.boundary pre epi) (ps : List Sent)
    (hok : ∀ p ∈ ps, p.Ok C m.boundary) (hlim : SaidInLimits S (ps.map Sent.said))
    (input : LazyStream ρ) (hi : SOK L input) (hin : L.sc input = sentBody m.boundary pre ps (b!"--" ++ epi))
    (hf : (L.sc input).length ≤ fuel64) :
    viewOf (m.parse C S (builtinOps ρ os hs.length) fuel64 input ⟨hs, heap⟩).1
        (m.parse C S (builtinOps ρ os hs.length) fuel64 input ⟨hs, heap⟩).2.2.heap = .ok (saidView (ps.map Sent.said)) := by
  have key := C85_meaning C hC S hS hq os hos fuel64 m hc hl hs heap ht input hi hf _ (by
    rw [hin]; exact reads_whole hcs h13 ha ps hok hlim)
  rw [key, ← saidGhost_view hok]
  rfl

theorem reads_foreign {C : Codecs} {S : Settings} (hcs : ∀ n, (∀ c ∈ n, c < 128) → C.strEncode S.defaultCharset n = .ok n)
    {boundary : Bytes} (h13 : 13 ∉ boundary) {pre : Option Bytes} (ha : Around boundary pre []) (ps : List Sent)
    (hok : ∀ p ∈ ps, p.Ok C boundary) (hlim : SaidInLimits S (ps.map Sent.said))
    {fs : List ExtField} {content text : Bytes} (hp : PartText C boundary fs content text) (hx : Foreign fs) (rest : Bytes) :
    Reads C S (b!"--" ++ boundary) (sentBody boundary pre ps (text ++ b!"\r\n" ++ (b!"--" ++ boundary) ++ rest))
      ⟨[], [], none, 0, 0⟩ (.error .unicodeEncodeError) := by
  refine reads_body hcs h13 (fun p hp => ⟨ha.preSep p hp, ha.preHead p hp, ha.preShort p hp⟩) ps hok hlim (fun g' _ => ?_)
  obtain ⟨c1, c2⟩ := cut_form (rest := rest) h13 hp.noSep
  obtain ⟨t, md, e1, e2⟩ := partReads_foreign (S := S) hp hx g'.close (text.length < 1024)
  exact .partErr (by simp) (by rw [c1]; exact e1) (by rw [c1]; exact e2)

/-- **C133 is false of the code**: a name or a file name in the extended notation with a character outside ASCII, in
whatever part: the whole form is refused with `UnicodeEncodeError`, whatever comes after that part. -/
theorem C133_refuted {ρ : Type} [Producer ρ] {L : Lawful ρ} (C : Codecs) (hC : ∀ b, C.Avoids (.stopUpload b))
    (S : Settings) (hS : ∀ k, S.dataMaxMemory = some k → 0 ≤ k) (hq : emptyQueryDict C S = .ok ())
    (hcs : ∀ n, (∀ c ∈ n, c < 128) → C.strEncode S.defaultCharset n = .ok n)
    (os : Os) (hos : ∀ e, os.tempFile e = .ok ()) (fuel64 : Nat) (m : MultiPart) (hc : 1 ≤ m.chunkSize)
    (hl : m.contentLength ≠ 0) (h13 : 13 ∉ m.boundary) (hs : List Builtin) (heap : Heap) (ht : Takes S m.contentLength hs)
    {pre : Option Bytes} (ha : Around m.boundary pre []) (ps : List Sent)
    (hok : ∀ p ∈ ps, p.Ok C m.boundary) (hlim : SaidInLimits S (ps.map Sent.said))
    {fs : List ExtField} {content text : Bytes} (hp : PartText C m.boundary fs content text) (hx : Foreign fs) (rest : Bytes)
    (input : LazyStream ρ) (hi : SOK L input)
    (hin : L.sc input = sentBody m.boundary pre ps (text ++ b!"\r\n" ++ (b!"--" ++ m.boundary) ++ rest))
    (hf : (L.sc input).length ≤ fuel64) :
    viewOf (m.parse C S (builtinOps ρ os hs.length) fuel64 input ⟨hs, heap⟩).1
        (m.parse C S (builtinOps ρ os hs.length) fuel64 input ⟨hs, heap⟩).2.2.heap = .error .unicodeEncodeError := by
  have key := C85_meaning C hC S hS hq os hos fuel64 m hc hl hs heap ht input hi hf (.error .unicodeEncodeError) (by
    rw [hin]; exact reads_foreign hcs h13 ha ps hok hlim hp hx rest)
  rw [key]
  rfl

/-- A field with a quoted name, its own content type and an upper-case header name. -/
def sentNote : Sent where
  fields := [⟨b!"Content-Type", b!"Text/Plain", [(b!"charset", .b b!"utf-8")]⟩,
    ⟨b!"CONTENT-DISPOSITION", b!"form-data", [(b!"name", .b b!"note")]⟩]
  content := b!"hi"
  text := b!"\r\nContent-Type: Text/Plain; charset=utf-8\r\nCONTENT-DISPOSITION: form-data; name=\"note\"\r\n\r\nhi"
  said := .field b!"note" 2 ⟨b!"hi", b!"text/plain", [], [(b!"charset", .b b!"utf-8")]⟩

/-- A file whose name is in the extended notation, sent in base64. -/
def sentFile : Sent where
  fields := [⟨b!"Content-Disposition", b!"form-data", [(b!"name", .b b!"up"), (b!"filename", .u (Py.toU b!"a b"))]⟩,
    ⟨b!"Content-Transfer-Encoding", b!"BASE64", []⟩]
  content := b!"SGVs"
  text := b!"\r\nContent-Disposition: form-data; name=up; filename*=UTF-8'en'a%20b\r\n" ++
    b!"Content-Transfer-Encoding: BASE64\r\n\r\nSGVs"
  said := .file b!"up" b!"a b" b!"Hel"

private theorem vis (s t : Bytes) (h : (s.all fun c => decide (33 ≤ c ∧ c ≤ 126) && decide (c ∉ t)) = true) :
    ∀ c ∈ s, Visible c ∧ c ∉ t := by
  intro c hc
  have := List.all_eq_true.1 h c hc
  simpa [Visible] using this

private theorem ends (s : Bytes) (h : (s.all fun c => decide (c ∉ byteBlanks)) = true) (c : UInt8)
    (hc : s.head? = some c ∨ s.getLast? = some c) : c ∉ byteBlanks := by
  have hm : c ∈ s := hc.elim List.mem_of_head? List.mem_of_getLast?
  simpa using List.all_eq_true.1 h c hm

theorem sentNote_ok (C : Codecs) : sentNote.Ok C b!"B" := by
  refine ⟨⟨⟨[b!"Content-Type: Text/Plain; charset=utf-8", b!"CONTENT-DISPOSITION: form-data; name=\"note\""], ?_, by decide,
    rfl⟩, by decide +kernel⟩, ?_⟩
  · refine .cons ⟨vis _ _ rfl, ⟨by decide, vis _ _ rfl⟩, by decide, _, .plain .nil (n := b!"charset") (v := b!"utf-8")
      ⟨by decide, vis _ _ rfl⟩ (by decide) (.inl ⟨fun c hc => (vis b!"utf-8" [] rfl c hc).1, rfl⟩), rfl⟩ ?_
    refine .cons ⟨vis _ _ rfl, ⟨by decide, vis _ _ rfl⟩, by decide, _, .plain .nil (n := b!"name") (v := b!"note")
      ⟨by decide, vis _ _ rfl⟩ (by decide) (.inr rfl), rfl⟩ .nil
  · exact .field (cd := ⟨b!"CONTENT-DISPOSITION", b!"form-data", [(b!"name", .b b!"note")]⟩) (p := .b b!"note") rfl rfl
      (.bytes ⟨[], [], rfl, by simp, ends _ rfl⟩) (by decide) (by intro q h; cases h) (by
        show FieldData none b!"hi" b!"hi"
        unfold FieldData; rw [if_neg (by decide)])

theorem sentFile_ok : sentFile.Ok pyCodecs b!"B" := by
  refine ⟨⟨⟨[b!"Content-Disposition: form-data; name=up; filename*=UTF-8'en'a%20b",
    b!"Content-Transfer-Encoding: BASE64"], ?_, by decide, rfl⟩, by decide +kernel⟩, ?_⟩
  · refine .cons ⟨vis _ _ rfl, ⟨by decide, vis _ _ rfl⟩, by decide, _, .ext (.plain .nil (n := b!"name") (v := b!"up")
      ⟨by decide, vis _ _ rfl⟩ (by decide) (.inl ⟨fun c hc => (vis b!"up" [] rfl c hc).1, rfl⟩))
      (n := b!"filename") (cs := b!"UTF-8") (lang := b!"en") (v := b!"a%20b") (vis _ _ rfl) (vis _ _ rfl)
      (.coded (b := b!"a b") (by decide) ((C111_percent _ _).1 (by decide +kernel)) (by decide +kernel)) (by decide), rfl⟩ ?_
    exact .cons ⟨vis _ _ rfl, ⟨by decide, vis _ _ rfl⟩, by decide, _, .nil, rfl⟩ .nil
  · exact .file (cd := ⟨b!"Content-Disposition", b!"form-data", [(b!"name", .b b!"up"), (b!"filename", .u (Py.toU b!"a b"))]⟩)
      (p := .b b!"up") (q := .u (Py.toU b!"a b")) rfl rfl (.bytes ⟨[], [], rfl, by simp, ends _ rfl⟩) (by decide) rfl
      ⟨.inr ⟨rfl, by decide⟩, by decide, by decide, by decide +kernel, by decide⟩ (by
        show FileData (some b!"base64") _ _
        unfold FileData; rw [if_pos rfl]
        exact .three 72 101 108 .nil) (by decide)

/-- Both in one form, with a preamble, at the default settings. -/
theorem sentBoth_ok : (∀ p ∈ [sentNote, sentFile], p.Ok pyCodecs b!"B") ∧ SaidInLimits {} ([sentNote, sentFile].map Sent.said) ∧
    Around b!"B" (some b!"hello") b!"\r\n" ∧
    (saidView ([sentNote, sentFile].map Sent.said)).1 =
      [(b!"note", [⟨b!"hi", b!"text/plain", [], [(b!"charset", .b b!"utf-8")]⟩])] ∧
    (saidView ([sentNote, sentFile].map Sent.said)).2 = [(b!"up", [(b!"a b", 3, some b!"Hel")])] := by
  refine ⟨?_, ⟨?_, ?_⟩, ⟨?_, ?_, ?_, by decide +kernel, by decide +kernel⟩, rfl, rfl⟩
  · intro p hp
    simp only [List.mem_cons, List.not_mem_nil, or_false] at hp
    rcases hp with rfl | rfl
    · exact sentNote_ok _
    · exact sentFile_ok
  · intro n hn; cases hn; decide
  · intro n hn; cases hn; decide
  all_goals intro p hp; cases hp; decide +kernel

/-- The header of a part whose file name is `é`. -/
def foreignFields : List ExtField :=
  [⟨b!"Content-Disposition", b!"form-data", [(b!"name", .b b!"up"), (b!"filename", .u [233])]⟩]

theorem foreignFields_ok : Foreign foreignFields ∧ PartText pyCodecs b!"B" foreignFields b!"x"
    b!"\r\nContent-Disposition: form-data; name=up; filename*=UTF-8''%C3%a9\r\n\r\nx" := by
  refine ⟨.fileName (cd := ⟨b!"Content-Disposition", b!"form-data", [(b!"name", .b b!"up"), (b!"filename", .u [233])]⟩)
    (p := .b b!"up") (name := b!"up") rfl rfl (.bytes ⟨[], [], rfl, by simp, ends _ rfl⟩) rfl ⟨233, by decide, by decide⟩,
    ⟨[b!"Content-Disposition: form-data; name=up; filename*=UTF-8''%C3%a9"], ?_, by decide, rfl⟩,
    by decide +kernel⟩
  · exact .cons ⟨vis _ _ rfl, ⟨by decide, vis _ _ rfl⟩, by decide, _, .ext (.plain .nil (n := b!"name") (v := b!"up")
      ⟨by decide, vis _ _ rfl⟩ (by decide) (.inl ⟨fun c hc => (vis b!"up" [] rfl c hc).1, rfl⟩))
      (n := b!"filename") (cs := b!"UTF-8") (lang := []) (v := b!"%C3%a9") (vis _ _ rfl) (vis _ _ rfl)
      (.coded (b := [0xc3, 0xa9]) (by decide) ((C111_percent _ _).1 (by decide +kernel)) (by decide +kernel)) (by decide), rfl⟩ .nil

/-- The codecs of `Verif/Py/Utf8.lean` meet the hypotheses at the default settings. -/
theorem pyCodecs_default : (∀ b, pyCodecs.Avoids (.stopUpload b)) ∧ emptyQueryDict pyCodecs {} = .ok () ∧
    ∀ n : Bytes, (∀ c ∈ n, c < 128) → pyCodecs.strEncode ({} : Settings).defaultCharset n = .ok n := by
  refine ⟨fun b => ⟨?_, ?_, ?_, ?_⟩, rfl, ?_⟩
  · intro enc x
    simp only [pyCodecs]
    split <;> simp
  · intro enc x
    simp only [pyCodecs]
    split
    · simp
    · rename_i e _
      cases e <;> simp only [Enc.decode] <;> (try split) <;> simp
  · intro enc x
    simp only [pyCodecs]
    split
    · simp
    · split <;> simp
  · intro enc x
    simp only [pyCodecs]
    split
    · simp
    · rename_i e _
      cases e <;> simp only [Enc.encode] <;> (try split) <;> simp
  · intro n hn
    have hl : lookupEnc ({} : Settings).defaultCharset = some .latin1 := by decide +kernel
    have ha : Py.isAscii n = true := by
      simp only [Py.isAscii, List.all_eq_true, decide_eq_true_eq]
      exact hn
    simp only [pyCodecs, hl, ha, if_true]

end Verif
