import Verif.Model.Conf
import Verif.Spec.Conf
/-!
# Settings (C65, C73)
-/

namespace Verif
open Spec

/-! ### Paths -/

theorem splitChar_noslash {c : Bytes} (h : 47 ∉ c) : Py.splitChar 47 c = [c] := by
  induction c with
  | nil => rfl
  | cons x t ih =>
    simp only [List.mem_cons, not_or] at h
    unfold Py.splitChar
    rw [if_neg (Ne.symm h.1), ih h.2]

theorem splitChar_slash {c r : Bytes} (h : 47 ∉ c) :
    Py.splitChar 47 (c ++ ([47] ++ r)) = c :: Py.splitChar 47 r := by
  induction c with
  | nil => simp [Py.splitChar]
  | cons x t ih =>
    simp only [List.mem_cons, not_or] at h
    rw [List.cons_append, Py.splitChar, if_neg (Ne.symm h.1), ih h.2]

theorem splitChar_slashed (c : Bytes) (cs : List Bytes) (h : ∀ x ∈ c :: cs, 47 ∉ x) :
    Py.splitChar 47 (c ++ slashed cs) = c :: cs := by
  induction cs generalizing c with
  | nil => rw [slashed, List.append_nil]; exact splitChar_noslash (h c (by simp))
  | cons d ds ih =>
    rw [slashed, List.append_assoc, splitChar_slash (h c (by simp)),
      ih d (fun x hx => h x (List.mem_cons_of_mem _ hx))]

theorem splitChar_parts (s : Bytes) : ∀ c ∈ Py.splitChar 47 s, 47 ∉ c := by
  induction s with
  | nil => simp [Py.splitChar]
  | cons x t ih =>
    intro c hc
    unfold Py.splitChar at hc
    by_cases hx : x = 47
    · rw [if_pos hx] at hc
      rcases List.mem_cons.1 hc with rfl | hc
      · simp
      · exact ih c hc
    · rw [if_neg hx] at hc
      cases hs : Py.splitChar 47 t with
      | nil => rw [hs] at hc; simp at hc; subst hc; simp [Ne.symm hx]
      | cons y ys =>
        rw [hs] at hc ih
        rcases List.mem_cons.1 hc with rfl | hc
        · simp only [List.mem_cons, not_or]
          exact ⟨Ne.symm hx, ih y (by simp)⟩
        · exact ih c (by simp [hc])

theorem joinSlash_slashed (c : Bytes) (cs : List Bytes) : [47] ++ joinSlash (c :: cs) = slashed (c :: cs) := by
  induction cs generalizing c with
  | nil => simp [joinSlash, slashed]
  | cons d ds ih =>
    rw [joinSlash, slashed, ← ih d]
    · simp
    · simp

/-- The names `normpath` keeps of a rooted path. -/
theorem normLoop_names : ∀ (cs acc : List Bytes), (∀ c ∈ cs, 47 ∉ c) → (∀ c ∈ acc, PathName c) →
    ∀ c ∈ normLoop true acc cs, PathName c := by
  intro cs
  induction cs with
  | nil => intro acc _ h c hc; exact h c (List.mem_reverse.1 hc)
  | cons x t ih =>
    intro acc h1 h2
    unfold normLoop
    have h1' : ∀ c ∈ t, 47 ∉ c := fun c hc => h1 c (by simp [hc])
    split
    · exact ih acc h1' h2
    · rename_i hx
      simp only [not_or] at hx
      split
      · rename_i hd
        refine ih (x :: acc) h1' (fun c hc => ?_)
        rcases List.mem_cons.1 hc with rfl | hc
        · refine ⟨hx.1, hx.2, ?_, h1 c (by simp)⟩
          rcases hd with hd | hd | hd
          · exact hd
          · exact absurd hd.1 (by simp)
          · cases acc with
            | nil => simp at hd
            | cons y ys =>
              simp only [List.head?_cons, Option.some.injEq] at hd
              exact absurd hd (h2 y (by simp)).2.2.1
        · exact h2 c hc
      · exact ih acc.tail h1' (fun c hc => h2 c (List.mem_of_mem_tail hc))

/-- Names and empty parts go through the loop unchanged, the empty ones are dropped. -/
theorem normLoop_keep : ∀ (cs acc : List Bytes), (∀ c ∈ cs, PathName c ∨ c = []) →
    normLoop true acc cs = acc.reverse ++ cs.filter (· ≠ []) := by
  intro cs
  induction cs with
  | nil => intro acc _; simp [normLoop]
  | cons x t ih =>
    intro acc h
    have h' : ∀ c ∈ t, PathName c ∨ c = [] := fun c hc => h c (by simp [hc])
    unfold normLoop
    rcases h x (by simp) with hx | rfl
    · rw [if_neg (by rintro (h | h); exact hx.1 h; exact hx.2.1 h), if_pos (.inl hx.2.2.1), ih _ h']
      simp [hx.1]
    · rw [if_pos (.inl rfl), ih _ h']
      simp

theorem normpath_rooted (p : Bytes) (h : Py.startsWith [47] p = true) :
    ∃ names, names = normLoop true [] (Py.splitChar 47 p) ∧ (∀ c ∈ names, PathName c) ∧
      normpath p = initialSlashes p ++ joinSlash names := by
  refine ⟨_, rfl, normLoop_names _ _ (splitChar_parts p) (by simp), ?_⟩
  have hne : p ≠ [] := by rintro rfl; simp [Py.startsWith] at h
  have hini : initialSlashes p ≠ [] := by
    unfold initialSlashes; rw [if_pos h]; split <;> simp
  unfold normpath
  rw [if_neg hne]
  simp only [h]
  rw [if_neg (by simp [hini])]

theorem normal_of_names {names : List Bytes} {p ini : Bytes} (hini : ini = [47] ∨ ini = [47, 47])
    (hn : ∀ c ∈ names, PathName c) (hp : p = ini ++ joinSlash names) : NormalAbs p := by
  cases names with
  | nil =>
    rcases hini with rfl | rfl
    · exact ⟨[], [], hn, .inl rfl, by simpa [joinSlash] using hp⟩
    · exact ⟨[], [47], hn, .inr rfl, by simpa [joinSlash] using hp⟩
  | cons c cs =>
    rcases hini with rfl | rfl
    · exact ⟨c :: cs, [], hn, .inl rfl, by rw [hp, joinSlash_slashed]; simp⟩
    · refine ⟨c :: cs, [47], hn, .inr rfl, ?_⟩
      rw [hp, if_neg (by simp), ← joinSlash_slashed]
      rfl

/-- `normpath` of a rooted path is a normal absolute path. -/
theorem normpath_normal (p : Bytes) (h : isAbs p = true) : NormalAbs (normpath p) := by
  obtain ⟨names, _, h1, h2⟩ := normpath_rooted p h
  refine normal_of_names ?_ h1 h2
  unfold initialSlashes
  rw [if_pos (show Py.startsWith [47] p = true from h)]
  split <;> simp

theorem slashed_append (a b : List Bytes) : slashed (a ++ b) = slashed a ++ slashed b := by
  induction a with
  | nil => rfl
  | cons c cs ih => simp [slashed, ih]

/-- A normal absolute path, possibly with a slash after it, is its own normal form. -/
theorem normpath_fix {p : Bytes} (h : NormalAbs p) : normpath p = p ∧
    (Py.endsWith [47] p = false → normpath (p ++ [47]) = p) ∧ isAbs p = true := by
  obtain ⟨names, extra, hn, he, rfl⟩ := h
  cases names with
  | nil =>
    rcases he with rfl | rfl
    · exact ⟨by decide +kernel, fun h => absurd h (by decide), by decide +kernel⟩
    · exact ⟨by decide +kernel, fun h => absurd h (by decide), by decide +kernel⟩
  | cons c cs =>
    rw [if_neg (by simp)]
    have hc := hn c (by simp)
    -- both cases at once: `tail` is nothing or one empty part
    have key : ∀ tail : List Bytes, (tail = [] ∨ tail = [[]]) →
        normpath (extra ++ slashed (c :: cs ++ tail)) = extra ++ slashed (c :: cs) := by
      intro tail ht
      have hparts : ∀ x ∈ c :: (cs ++ tail), PathName x ∨ x = [] := by
        intro x hx
        rw [← List.cons_append] at hx
        rcases List.mem_append.1 hx with hx | hx
        · exact .inl (hn x hx)
        · rcases ht with rfl | rfl
          · cases hx
          · exact .inr (List.mem_singleton.1 hx)
      have hns : ∀ x ∈ c :: (cs ++ tail), 47 ∉ x := by
        intro x hx
        rcases hparts x hx with h | rfl
        · exact h.2.2.2
        · simp
      have hfil : (c :: (cs ++ tail)).filter (· ≠ []) = c :: cs := by
        rw [← List.cons_append, List.filter_append]
        have h1 : (c :: cs).filter (· ≠ []) = c :: cs := by
          rw [List.filter_eq_self]
          intro x hx
          simpa using (hn x hx).1
        have h2 : tail.filter (· ≠ []) = [] := by rcases ht with rfl | rfl <;> simp
        rw [h1, h2, List.append_nil]
      have hsp : Py.splitChar 47 (slashed (c :: cs ++ tail)) = [] :: c :: (cs ++ tail) := by
        have := splitChar_slashed [] (c :: (cs ++ tail)) (by
          intro x hx
          rcases List.mem_cons.1 hx with rfl | hx
          · simp
          · exact hns x hx)
        simpa using this
      obtain ⟨x, t, rfl⟩ := List.exists_cons_of_ne_nil hc.1
      have hx : x ≠ 47 := fun h => hc.2.2.2 (by simp [h])
      have hsl : slashed ((x :: t) :: cs ++ tail) = 47 :: x :: (t ++ slashed (cs ++ tail)) := by
        simp [slashed]
      rcases he with rfl | rfl
      · obtain ⟨names, e1, _, e2⟩ := normpath_rooted (slashed ((x :: t) :: cs ++ tail))
          (by rw [hsl]; simp [Py.startsWith])
        rw [hsp, normLoop_keep _ _ (by
          intro y hy
          rcases List.mem_cons.1 hy with rfl | hy
          · exact .inr rfl
          · exact hparts y hy)] at e1
        have e3 : names = (x :: t) :: cs := by
          rw [e1, List.filter_cons_of_neg (by simp), hfil]; rfl
        have e4 : initialSlashes (slashed ((x :: t) :: cs ++ tail)) = [47] := by
          rw [hsl]; simp [initialSlashes, Py.startsWith, List.isPrefixOf, Ne.symm hx]
        rw [List.nil_append, List.nil_append, e2, e3, e4, joinSlash_slashed]
      · obtain ⟨names, e1, _, e2⟩ := normpath_rooted ([47] ++ slashed ((x :: t) :: cs ++ tail))
          (by simp [Py.startsWith])
        have hsp2 : Py.splitChar 47 ([47] ++ slashed ((x :: t) :: cs ++ tail)) =
            [] :: [] :: (x :: t) :: (cs ++ tail) := by
          show Py.splitChar 47 (47 :: slashed ((x :: t) :: cs ++ tail)) = _
          rw [Py.splitChar, if_pos rfl, hsp]
        rw [hsp2, normLoop_keep _ _ (by
          intro y hy
          rcases List.mem_cons.1 hy with rfl | hy
          · exact .inr rfl
          · rcases List.mem_cons.1 hy with rfl | hy
            · exact .inr rfl
            · exact hparts y hy)] at e1
        have e3 : names = (x :: t) :: cs := by
          rw [e1, List.filter_cons_of_neg (by simp), List.filter_cons_of_neg (by simp), hfil]; rfl
        have e4 : initialSlashes ([47] ++ slashed ((x :: t) :: cs ++ tail)) = [47, 47] := by
          rw [hsl]; simp [initialSlashes, Py.startsWith, List.isPrefixOf, Ne.symm hx]
        rw [e2, e3, e4, ← joinSlash_slashed]
        rfl
    refine ⟨?_, fun _ => ?_, ?_⟩
    · have := key [] (.inl rfl)
      rwa [List.append_nil] at this
    · have := key [[]] (.inr rfl)
      rw [slashed_append] at this
      have e : slashed [[]] = [47] := rfl
      rw [e, ← List.append_assoc] at this
      exact this
    · rcases he with rfl | rfl <;> simp [isAbs, Py.startsWith, slashed]

/-- **C73**: the upload directory is an absolute path in normal form, whatever the value given, if the
package has an absolute path. -/
theorem C73_normal (fs : Fs) (hb : isAbs fs.base = true) (dir : Bytes) : NormalAbs (uploadPath fs dir) := by
  have absj : ∀ a b : Bytes, isAbs a = true → isAbs (pathJoin a b) = true := by
    intro a b ha
    unfold pathJoin
    split
    · assumption
    · obtain ⟨r, rfl⟩ := List.isPrefixOf_iff_prefix.1 (show List.isPrefixOf [47] a = true from ha)
      split <;> simp [isAbs, Py.startsWith]
  have hget : ∀ d, NormalAbs (getAbsPath fs d) := fun d =>
    normpath_normal _ (absj _ _ (absj _ _ hb))
  unfold uploadPath
  simp only
  split
  · exact hget _
  · rename_i h
    simp only [Bool.or_eq_true, Bool.not_eq_true', not_or, Bool.not_eq_false] at h
    have hd : isAbs dir = true := by
      by_cases ha : isAbs dir = true
      · exact ha
      · -- a relative path has a relative normal form
        exfalso
        have ha' : Py.startsWith [47] dir = false := by
          cases hc : Py.startsWith [47] dir with
          | false => rfl
          | true => exact absurd hc ha
        have hrel : ∀ (cs acc : List Bytes), (∀ c ∈ cs, 47 ∉ c) → (∀ c ∈ acc, 47 ∉ c ∧ c ≠ []) →
            ∀ c ∈ normLoop false acc cs, 47 ∉ c ∧ c ≠ [] := by
          intro cs
          induction cs with
          | nil => intro acc _ h c hc; exact h c (List.mem_reverse.1 hc)
          | cons x t ih =>
            intro acc h1 h2
            have h1' : ∀ c ∈ t, 47 ∉ c := fun c hc => h1 c (by simp [hc])
            unfold normLoop
            split
            · exact ih acc h1' h2
            · rename_i hx
              simp only [not_or] at hx
              split
              · refine ih _ h1' (fun c hc => ?_)
                rcases List.mem_cons.1 hc with rfl | hc
                · exact ⟨h1 c (by simp), hx.1⟩
                · exact h2 c hc
              · exact ih _ h1' (fun c hc => h2 c (List.mem_of_mem_tail hc))
        have hn := hrel (Py.splitChar 47 dir) [] (splitChar_parts dir) (by simp)
        have habs := h.1
        unfold normpath at habs
        split at habs
        · exact absurd habs (by decide)
        · simp only [ha', initialSlashes, Bool.false_eq_true, if_false, List.nil_append] at habs
          generalize normLoop false [] (Py.splitChar 47 dir) = names at hn habs
          split at habs
          · exact absurd habs (by decide)
          · cases names with
            | nil => simp [joinSlash, isAbs, Py.startsWith] at habs
            | cons c cs =>
              obtain ⟨h1, h2⟩ := hn c (by simp)
              obtain ⟨x, t, rfl⟩ := List.exists_cons_of_ne_nil h2
              have : ∃ r, joinSlash ((x :: t) :: cs) = x :: r := by
                cases cs with
                | nil => exact ⟨t, rfl⟩
                | cons d ds => exact ⟨_, rfl⟩
              obtain ⟨r, hr⟩ := this
              rw [hr] at habs
              simp [isAbs, Py.startsWith] at habs
              subst habs
              exact h1 (by simp)
    exact normpath_normal dir hd

/-- A directory given as an absolute path in normal form is taken as it is. -/
theorem C65_dir (fs : Fs) (dir : Bytes) (h : NormalAbs dir) : uploadPath fs dir = dir := by
  obtain ⟨h1, h2, h3⟩ := normpath_fix h
  unfold uploadPath
  simp only [h1, h3]
  split
  · unfold getAbsPath
    have e1 : pathJoin fs.base dir = dir := by
      unfold pathJoin; rw [if_pos (show Py.startsWith [47] dir = true from h3)]
    rw [e1]
    have hne : dir ≠ [] := by rintro rfl; simp [isAbs, Py.startsWith] at h3
    by_cases he : Py.endsWith [47] dir = true
    · have : pathJoin dir [] = dir := by
        unfold pathJoin
        rw [if_neg (by simp [Py.startsWith]), if_pos (.inr he), List.append_nil]
      rw [this, h1]
    · have : pathJoin dir [] = dir ++ [47] := by
        unfold pathJoin
        rw [if_neg (by simp [Py.startsWith]), if_neg (by simp [hne, he])]
        simp
      rw [this, h2 (by simpa using he)]
  · rfl

/-- What `Settings(d)` gives for the five settings that are plain values: the value under the key if the
dictionary has it, the default otherwise. -/
structure Overridden (d : Dict Bytes PyVal) (s : SettingsObj) : Prop where
  header : s.maxHeaderSize = some ((d.get? b!"MAX_HEADER_SIZE").getD (.int 16))
  file : s.fileUploadMaxMemorySize = some ((d.get? b!"FILE_UPLOAD_MAX_MEMORY").getD (.int 31457280))
  data : s.dataUploadMaxMemorySize = some ((d.get? b!"DATA_UPLOAD_MAX_MEMORY").getD (.int 5242880))
  fields : s.dataUploadMaxNumberFields = some ((d.get? b!"DATA_UPLOAD_MAX_FIELDS").getD (.int 4096))
  charset : s.defaultCharset = some ((d.get? b!"DEFAULT_CHARSET").getD (.str b!"ISO-8859-1"))

theorem pick_eq (d : Dict Bytes PyVal) (k : Bytes) (v : PyVal) : pick d k (some v) = some ((d.get? k).getD v) := by
  unfold pick
  cases d.get? k <;> rfl

/-- **C65**, but for the upload directory: every setting has the value given or its default.  The upload
directory is a string in any case: the path of the string given, or of the default. -/
theorem C65_partial (fs : Fs) (d : Dict Bytes PyVal) (hd : d ≠ []) (check : Bool) (s : SettingsObj)
    (h : settingsInit fs (.dict d) check = .ok s) :
    Overridden d s ∧
    ((d.get? b!"FILE_UPLOAD_TEMP_DIR" = none ∧
        s.fileUploadTempDir = some (.str (uploadPath fs b!"files/file_uploads"))) ∨
      ∃ dir, d.get? b!"FILE_UPLOAD_TEMP_DIR" = some (.str dir) ∧
        s.fileUploadTempDir = some (.str (uploadPath fs dir)) ∧
        (NormalAbs dir → s.fileUploadTempDir = some (.str dir))) := by
  have chk : ∀ v c w, checkUploadDir fs v c = .ok w → ∃ dir, v = .str dir ∧ w = .str (uploadPath fs dir) := by
    intro v c w hw
    unfold checkUploadDir at hw
    cases v with
    | str dir =>
      refine ⟨dir, rfl, ?_⟩
      simp only at hw
      split at hw
      · split at hw
        · cases hw
        · cases hw
        · cases hw; rfl
      · cases hw; rfl
    | int i => cases hw
    | none => cases hw
    | other n => cases hw
  simp only [settingsInit, if_neg hd] at h
  split at h
  · cases h
  · rename_i s0 hs0
    unfold settingsDefault at hs0
    split at hs0
    · cases hs0
    · rename_i w hw
      obtain ⟨dir0, e1, e2⟩ := chk _ _ _ hw
      cases hs0
      simp only at h
      split at h
      · cases h
      · rename_i dirv hdir
        cases h
        refine ⟨⟨by simp only [pick_eq], by simp only [pick_eq]; rfl, by simp only [pick_eq]; rfl,
          by simp only [pick_eq], by simp only [pick_eq]⟩, ?_⟩
        split at hdir
        · rename_i v hv
          split at hdir
          · cases hdir
          · rename_i v' hv'
            obtain ⟨dir, e3, e4⟩ := chk _ _ _ hv'
            cases hdir
            subst e3 e4
            exact .inr ⟨dir, hv, rfl, fun hn => by rw [C65_dir fs dir hn]⟩
        · rename_i hv
          cases hdir
          cases e1
          subst e2
          exact .inl ⟨hv, rfl⟩

/-- **C65**: an empty dictionary or anything that is not a dictionary gives no settings at all. -/
theorem C65_none (fs : Fs) (check : Bool) :
    settingsInit fs (.dict []) check = .ok {} ∧ settingsInit fs .other check = .ok {} := ⟨rfl, rfl⟩

/-- **C65**, when it fails: only the check of the upload directories can raise. -/
theorem C65_total (fs : Fs) (d : Dict Bytes PyVal) (check : Bool)
    (h1 : ∀ p, fs.mkdir p = .ok ()) (h2 : ∀ p, fs.touch p = .ok ())
    (h3 : ∀ v, d.get? b!"FILE_UPLOAD_TEMP_DIR" = some v → ∃ s, v = .str s) :
    ∃ s, settingsInit fs (.dict d) check = .ok s := by
  have chk : ∀ dir c, ∃ w, checkUploadDir fs (.str dir) c = .ok w := by
    intro dir c
    unfold checkUploadDir
    simp only
    split
    · have : (if fs.isdir (uploadPath fs dir) = true then Except.ok () else fs.mkdir (uploadPath fs dir)) =
          (.ok () : Except Exc Unit) := by split <;> simp [h1]
      rw [this]
      simp only [h2]
      exact ⟨_, rfl⟩
    · exact ⟨_, rfl⟩
  unfold settingsInit
  simp only
  split
  · exact ⟨_, rfl⟩
  · obtain ⟨w, hw⟩ := chk (pathJoin b!"files" b!"file_uploads") check
    unfold settingsDefault
    rw [hw]
    simp only
    cases hv : d.get? b!"FILE_UPLOAD_TEMP_DIR" with
    | none => exact ⟨_, rfl⟩
    | some v =>
      obtain ⟨s, rfl⟩ := h3 v hv
      obtain ⟨w', hw'⟩ := chk s true
      simp only [hw']
      exact ⟨_, rfl⟩

/-- A file system where everything exists. -/
def easyFs : Fs := ⟨fun _ => true, fun _ => .ok (), fun _ => .ok (), b!"/app/request_parser"⟩

/-- **C65** is false of the code for the upload directory: the value is not the one given (`/tmp` for
`/tmp/`, a directory inside the package for a relative path). -/
theorem C65_refuted :
    ((settingsInit easyFs (.dict [(b!"FILE_UPLOAD_TEMP_DIR", .str b!"/tmp/")]) false).toOption.bind
      (·.fileUploadTempDir)) = some (.str b!"/tmp") ∧
    ((settingsInit easyFs (.dict [(b!"FILE_UPLOAD_TEMP_DIR", .str b!"up")]) false).toOption.bind
      (·.fileUploadTempDir)) = some (.str b!"/app/request_parser/up") := by decide +kernel

/-- The names of the attributes are not the keys: `FILE_UPLOAD_MAX_MEMORY_SIZE` in the dictionary is
ignored. -/
theorem C65_attribute_name_ignored :
    ((settingsInit easyFs (.dict [(b!"FILE_UPLOAD_MAX_MEMORY_SIZE", .int 1)]) false).toOption.bind
      (·.fileUploadMaxMemorySize)) = some (.int 31457280) := by decide +kernel

/-- What comes of the check of a directory: of making it where it is missing, and of writing a file in it. -/
def Spec.DirTrial (fs : Fs) (d : Bytes) (r : Except Exc Unit) : Prop :=
  (fs.isdir d = false ∧ (∃ e, fs.mkdir d = .error e) ∧ r = fs.mkdir d) ∨
  ((fs.isdir d = true ∨ fs.mkdir d = .ok ()) ∧ r = fs.touch (pathJoin d b!"acdr423x.tmp"))

/-- **C65**, the upload directory that is given: if it can be used, it is the setting; if trying it raises `IOError`,
`InvalidDirectory` is raised; every other exception gets through. -/
theorem C65_directory (fs : Fs) (d : Dict Bytes PyVal) (dir : Bytes) (hd : d.get? b!"FILE_UPLOAD_TEMP_DIR" = some (.str dir))
    (r : Except Exc Unit) (hr : Spec.DirTrial fs (uploadPath fs dir) r) :
    match r with
    | .ok () => ∃ s, settingsInit fs (.dict d) false = .ok s ∧ s.fileUploadTempDir = some (.str (uploadPath fs dir))
    | .error e => settingsInit fs (.dict d) false = .error (if e = .ioError then .invalidDirectory else e) := by
  have hne : d ≠ [] := by rintro rfl; cases hd
  have hc : checkUploadDir fs (.str dir) true = (match (generalizing := false) r with
      | .ok () => .ok (.str (uploadPath fs dir))
      | .error e => .error (if e = .ioError then .invalidDirectory else e)) := by
    unfold checkUploadDir
    rcases hr with ⟨h1, ⟨e, h2⟩, rfl⟩ | ⟨h1 | h1, rfl⟩
    · simp only [h1, Bool.false_eq_true, if_false, if_true]
      rw [h2]
      cases e <;> rfl
    · simp only [h1, if_true]
      generalize fs.touch _ = t
      rcases t with e | u
      · cases e <;> rfl
      · rfl
    · have h2 : (if fs.isdir (uploadPath fs dir) = true then .ok () else fs.mkdir (uploadPath fs dir) : Except Exc Unit) = .ok () := by
        rw [h1, ite_self]
      simp only [h2, if_true]
      generalize fs.touch _ = t
      rcases t with e | u
      · cases e <;> rfl
      · rfl
  unfold settingsInit settingsDefault checkUploadDir
  simp only [hne, if_false, hd]
  unfold checkUploadDir at hc
  simp only at hc ⊢
  rw [hc]
  cases r with
  | ok u => exact ⟨_, rfl, rfl⟩
  | error e => rfl

/-- A directory that cannot be written, and one that cannot be made because the disk fails. -/
example : settingsInit { easyFs with touch := fun _ => .error .ioError } (.dict [(b!"FILE_UPLOAD_TEMP_DIR", .str b!"/x")]) false =
      .error .invalidDirectory ∧
    settingsInit { easyFs with isdir := fun _ => false, mkdir := fun _ => .error .ioError }
      (.dict [(b!"FILE_UPLOAD_TEMP_DIR", .str b!"/x")]) false = .error .invalidDirectory :=
  ⟨C65_directory _ _ b!"/x" rfl (.error .ioError) (.inr ⟨by simp [easyFs], rfl⟩),
    C65_directory _ _ b!"/x" rfl (.error .ioError) (.inl ⟨rfl, ⟨_, rfl⟩, rfl⟩)⟩

/-- `OSError` of `mkdir` is not turned into `InvalidDirectory`. -/
theorem C65_oserror : settingsInit { easyFs with isdir := fun _ => false, mkdir := fun _ => .error .osError }
    (.dict [(b!"FILE_UPLOAD_TEMP_DIR", .str b!"/nowhere/x")]) false = .error .osError := by rfl

example : normpath b!"/a/./b//../c/" = b!"/a/c" ∧ normpath b!"a/../../b" = b!"../b" ∧
    normpath b!"//x/.." = b!"//" ∧ normpath b!"a/.." = b!"." := by decide +kernel

end Verif
