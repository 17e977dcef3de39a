import Verif.Props.Conf
/-!
# C65: which settings are refused, and how
-/

namespace Verif
open Spec

namespace Spec

/-- The machine refuses the upload directory `dir` with `e`: it cannot be made, or no file can be made in it; an `IOError`
is reported as `InvalidDirectory`, everything else as it is. -/
def DirRefused (fs : Fs) (dir : Bytes) (e : Exc) : Prop :=
  ∃ e0, ((fs.isdir (uploadPath fs dir) = false ∧ fs.mkdir (uploadPath fs dir) = .error e0) ∨
      ((fs.isdir (uploadPath fs dir) = true ∨ fs.mkdir (uploadPath fs dir) = .ok ()) ∧
        fs.touch (pathJoin (uploadPath fs dir) b!"acdr423x.tmp") = .error e0)) ∧
    ((e0 = .ioError ∧ e = .invalidDirectory) ∨ (e0 ≠ .ioError ∧ e = e0))

end Spec

theorem checkUploadDir_refused (fs : Fs) (dir : Bytes) (e : Exc) :
    checkUploadDir fs (.str dir) true = .error e ↔ DirRefused fs dir e := by
  have hmap : ∀ (t : Except Exc Unit), (match t with
      | .error .ioError => .error .invalidDirectory
      | .error e => .error e
      | .ok () => .ok (PyVal.str (uploadPath fs dir)) : Except Exc PyVal) = .error e ↔
      ∃ e0, t = .error e0 ∧ ((e0 = .ioError ∧ e = .invalidDirectory) ∨ (e0 ≠ .ioError ∧ e = e0)) := by
    intro t
    cases t with
    | ok u => simp
    | error e0 =>
      by_cases h0 : e0 = .ioError
      · subst h0
        simp [eq_comm]
      · have : (match (.error e0 : Except Exc Unit) with
            | .error .ioError => .error .invalidDirectory
            | .error e => .error e
            | .ok () => .ok (PyVal.str (uploadPath fs dir)) : Except Exc PyVal) = .error e0 := by
          cases e0 <;> first | rfl | exact absurd rfl h0
        rw [this]
        simp [h0, eq_comm]
  unfold checkUploadDir
  simp only [if_true]
  refine Iff.trans (hmap _) ?_
  unfold DirRefused
  refine exists_congr fun e0 => and_congr_left fun _ => ?_
  cases hd : fs.isdir (uploadPath fs dir) with
  | true => simp
  | false =>
    cases hm : fs.mkdir (uploadPath fs dir) <;> simp

/-- **C65**: `Settings(d)` raises exactly when `d` is not empty and the default upload directory is to be checked and is
refused, or `d` gives an upload directory that is refused; one that is no text is an `AttributeError`.  (The default
directory is checked even when `d` gives another; the given one is checked even if no check is asked for.)  Whatever else
`d` says, and whatever its values are, it is accepted. -/
theorem C65_refused (fs : Fs) (d : Dict Bytes PyVal) (check : Bool) (e : Exc) :
    settingsInit fs (.dict d) check = .error e ↔ d ≠ [] ∧
      ((check = true ∧ DirRefused fs b!"files/file_uploads" e) ∨
       (¬ (check = true ∧ ∃ e', DirRefused fs b!"files/file_uploads" e') ∧
        ∃ v, d.get? b!"FILE_UPLOAD_TEMP_DIR" = some v ∧
          (((∀ s, v ≠ .str s) ∧ e = .attributeError) ∨ ∃ s, v = .str s ∧ DirRefused fs s e))) := by
  have hj : pathJoin b!"files" b!"file_uploads" = b!"files/file_uploads" := by decide
  have hdef : ∀ x, checkUploadDir fs (.str b!"files/file_uploads") check = .error x ↔
      check = true ∧ DirRefused fs b!"files/file_uploads" x := by
    intro x
    cases check with
    | true => simpa using checkUploadDir_refused fs b!"files/file_uploads" x
    | false => simp [checkUploadDir]
  unfold settingsInit
  simp only
  by_cases h0 : d = []
  · simp [h0]
  rw [if_neg h0]
  simp only [ne_eq, h0, not_false_eq_true, true_and]
  unfold settingsDefault
  rw [hj]
  cases hc : checkUploadDir fs (.str b!"files/file_uploads") check with
  | error e' =>
    have h1 := (hdef e').1 hc
    have h2 : (∃ e', DirRefused fs b!"files/file_uploads" e') := ⟨e', h1.2⟩
    simp only [Except.error.injEq, h1.1, true_and, h2, not_true_eq_false, false_and, or_false]
    constructor
    · rintro rfl
      exact h1.2
    · intro h
      have := (hdef e).2 ⟨h1.1, h⟩
      rw [hc] at this
      exact Except.error.inj this
  | ok v0 =>
    have h1 : ∀ x, ¬ (check = true ∧ DirRefused fs b!"files/file_uploads" x) := fun x h => by
      have := (hdef x).2 h
      rw [hc] at this
      cases this
    have h2 : ¬ (check = true ∧ ∃ e', DirRefused fs b!"files/file_uploads" e') := fun ⟨a, x, b⟩ => h1 x ⟨a, b⟩
    simp only [h1, false_or, h2, not_false_eq_true, true_and]
    cases hg : d.get? b!"FILE_UPLOAD_TEMP_DIR" with
    | none => simp
    | some v =>
      simp only [Option.some.injEq, exists_eq_left']
      have key : checkUploadDir fs v true = .error e ↔
          (((∀ s, v ≠ .str s) ∧ e = .attributeError) ∨ ∃ s, v = .str s ∧ DirRefused fs s e) := by
        cases v with
        | str s => simpa using checkUploadDir_refused fs s e
        | _ => simp [checkUploadDir, eq_comm]
      rw [← key]
      cases checkUploadDir fs v true <;> simp

/-- A number as upload directory; a directory without write access; a setting of the wrong kind, which is accepted. -/
example : (let fs : Fs := ⟨fun _ => true, fun _ => .ok (), fun p => if p = b!"/ro/acdr423x.tmp" then .error .ioError else .ok (), b!"/b"⟩
    (match settingsInit fs (.dict [(b!"FILE_UPLOAD_TEMP_DIR", .int 3)]) false with
      | .error .attributeError => true
      | _ => false) = true ∧
    (match settingsInit fs (.dict [(b!"FILE_UPLOAD_TEMP_DIR", .str b!"/ro")]) false with
      | .error .invalidDirectory => true
      | _ => false) = true ∧
    (settingsInit fs (.dict [(b!"MAX_HEADER_SIZE", .str b!"x")]) true).toOption.isSome = true) := by
  decide +kernel

end Verif
