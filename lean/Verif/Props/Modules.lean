import Verif.Model.Modules
import Verif.Proofs.Chars
/-!
# Modules and their directories (C113)
-/

namespace Verif
open Py

/-- `f` is a file called `base` in the directory `d`, with any number of slashes between (the root directory is
written with them only). -/
inductive Spec.InDir : (d f : Bytes) → Prop where
  | dir {d base n} : d ≠ [] → d.getLast? ≠ some 47 → 47 ∉ base → 1 ≤ n → InDir d (d ++ List.replicate n 47 ++ base)
  | root {base n} : 47 ∉ base → 1 ≤ n → InDir (List.replicate n 47) (List.replicate n 47 ++ base)
  | here {base} : 47 ∉ base → InDir [] base

theorem dirname_dir {d base : Bytes} {n : Nat} (hd : d ≠ []) (hl : d.getLast? ≠ some 47) (hb : 47 ∉ base) :
    Py.dirname (d ++ List.replicate (n + 1) 47 ++ base) = d := by
  have e : d ++ List.replicate (n + 1) 47 ++ base = (d ++ List.replicate n 47) ++ 47 :: base := by
    simp [List.replicate_succ']
  unfold Py.dirname
  rw [e, rfindChar_app hb]
  have et : ((d ++ List.replicate n 47) ++ 47 :: base).take ((d ++ List.replicate n 47).length + 1) =
      d ++ List.replicate (n + 1) 47 := by
    rw [List.take_append]
    simp [List.take_of_length_le, List.replicate_succ']
  simp only [et]
  obtain ⟨d', x, rfl⟩ : ∃ d' x, d = d' ++ [x] := ⟨d.dropLast, d.getLast hd, (List.dropLast_append_getLast hd).symm⟩
  have hx : x ≠ 47 := by simpa using hl
  rw [if_neg (by simp [hx])]
  have : (d' ++ [x] ++ List.replicate (n + 1) 47).reverse = List.replicate (n + 1) 47 ++ (x :: d'.reverse) := by simp
  rw [this, List.dropWhile_append]
  have h0 : List.dropWhile (fun y : UInt8 => decide (y = 47)) (List.replicate (n + 1) 47) = [] := by
    clear this et e
    induction n with
    | zero => rfl
    | succ n ih => rw [List.replicate_succ, List.dropWhile_cons_of_pos (by simp)]; exact ih
  rw [h0]
  simp [hx]

theorem dirname_root {base : Bytes} {n : Nat} (hb : 47 ∉ base) :
    Py.dirname (List.replicate (n + 1) 47 ++ base) = List.replicate (n + 1) 47 := by
  have e : List.replicate (n + 1) 47 ++ base = (List.replicate n 47) ++ 47 :: base := by
    simp [List.replicate_succ']
  unfold Py.dirname
  rw [e, rfindChar_app hb]
  have et : ((List.replicate n (47 : UInt8)) ++ 47 :: base).take ((List.replicate n (47 : UInt8)).length + 1) =
      List.replicate (n + 1) 47 := by
    rw [List.take_append]
    simp [List.take_of_length_le, List.replicate_succ']
  simp only [et]
  rw [if_pos (by simp)]

/-- **C113, `module_dir`**: a package with one directory is in that one; every other module is in the directory of its
file; and exactly the packages with no or several directories and without a file have none: `ValueError`. -/
theorem C113_dir (m : PyModule) :
    (∀ p, m.path = some [p] → moduleDir m = .ok p) ∧
    (∀ d f, (∀ p, m.path ≠ some [p]) → m.file = some f → Spec.InDir d f → moduleDir m = .ok d) ∧
    (moduleDir m = .error .valueError ↔ (∀ p, m.path ≠ some [p]) ∧ m.file = none) := by
  obtain ⟨name, path, file⟩ := m
  have hone : ∀ (o : Option (List Bytes)), (∃ p, o = some [p]) ∨
      ((∀ p, o ≠ some [p]) ∧ ∀ file, moduleDir ⟨name, o, file⟩ =
        match file with | some f => .ok (Py.dirname f) | none => .error .valueError) := by
    intro o
    match o with
    | none => exact .inr ⟨by simp, fun _ => rfl⟩
    | some [] => exact .inr ⟨by simp, fun _ => rfl⟩
    | some [p] => exact .inl ⟨p, rfl⟩
    | some (p :: q :: l) => exact .inr ⟨by simp, fun _ => rfl⟩
  refine ⟨?_, ?_, ?_⟩
  · intro p hp
    simp only at hp
    subst hp
    rfl
  · intro d f hp hf hd
    simp only at hp hf
    subst hf
    rcases hone path with ⟨p, rfl⟩ | ⟨_, h⟩
    · exact absurd rfl (hp p)
    · rw [h]
      simp only [Except.ok.injEq]
      cases hd with
      | @dir _ base n h1 h2 h3 h4 =>
        obtain ⟨n, rfl⟩ := Nat.exists_eq_add_of_le' h4
        exact dirname_dir h1 h2 h3
      | @root base n h3 h4 =>
        obtain ⟨n, rfl⟩ := Nat.exists_eq_add_of_le' h4
        exact dirname_root h3
      | here h3 => simp [Py.dirname, rfindChar_eq_none.2 h3]
  · rcases hone path with ⟨p, rfl⟩ | ⟨hp, h⟩
    · simp [moduleDir]
    · rw [h]
      cases file with
      | none => simp [hp]
      | some f => simp

/-- Every file is in some directory, so that the second part says what `module_dir` gives for all modules. -/
theorem Spec.InDir.total (f : Bytes) : ∃ d, Spec.InDir d f := by
  cases h : rfindChar 47 f with
  | none => exact ⟨[], .here (rfindChar_eq_none.1 h)⟩
  | some i =>
    obtain ⟨l, r, rfl, hr, _⟩ := rfindChar_eq_some h
    have key : ∀ (k : Nat) (l : Bytes) (n : Nat), l.length = k → ∃ d, Spec.InDir d (l ++ List.replicate (n + 1) 47 ++ r) := by
      intro k
      induction k with
      | zero =>
        intro l n hl
        rw [List.length_eq_zero_iff] at hl
        subst hl
        exact ⟨_, .root hr (by omega)⟩
      | succ k ih =>
        intro l n hl
        obtain ⟨l', x, rfl⟩ : ∃ l' x, l = l' ++ [x] := by
          have hne : l ≠ [] := by intro h; simp [h] at hl
          exact ⟨l.dropLast, l.getLast hne, (List.dropLast_append_getLast hne).symm⟩
        by_cases hx : x = 47
        · subst hx
          have := ih l' (n + 1) (by simpa using hl)
          simpa [List.replicate_succ] using this
        · exact ⟨_, .dir (by simp) (by simpa using hx) hr (by omega)⟩
    have := key l.length l 0 rfl
    simpa using this

example : moduleDir ⟨b!"os", none, some b!"/usr/lib//os.py"⟩ = .ok b!"/usr/lib" :=
  (C113_dir _).2.1 _ _ (by simp) rfl (.dir (d := b!"/usr/lib") (base := b!"os.py") (n := 2) (by decide) (by decide) (by decide) (by decide))

/-- The package has a module or package of this name in one of its directories. -/
def Spec.HasModule (fs : ModuleFiles) (p : PyModule) (name : Bytes) : Prop :=
  ∃ path, p.path = some path ∧ ∃ d ∈ path, fs d name = true

/-- **C113 (partial)**: what is not a package has no modules.  And yes is only said if some directory of the package has
an entry whose name is the full name of the module with its dots.  Missing: the modules of packages
(`C113_refuted`). -/
theorem C113_submodule_partial (fs : ModuleFiles) (p : PyModule) (name : Bytes) :
    (p.path = none → moduleHasSubmodule fs p name = false ∧ ¬ Spec.HasModule fs p name) ∧
    (moduleHasSubmodule fs p name = true ↔ Spec.HasModule fs p (p.name ++ b!"." ++ name)) := by
  constructor
  · intro h
    refine ⟨by simp [moduleHasSubmodule, h], ?_⟩
    rintro ⟨path, hp, _⟩
    rw [h] at hp
    cases hp
  · unfold moduleHasSubmodule Spec.HasModule findModule
    cases p.path with
    | none => simp
    | some path =>
      simp only [Option.some.injEq, exists_eq_left']
      by_cases h : path.any (fun d => fs d (p.name ++ [46] ++ name)) = true
      · simp only [if_pos h, true_iff]
        simpa using h
      · simp only [if_neg h, Bool.false_eq_true, false_iff]
        simpa using h

/-- **C113 is false of the code**: whatever modules a package has, if its directories have no entry with a dot before the
suffix (a dot cannot be in the name of a module), `module_has_submodule` denies all of them. -/
theorem C113_refuted :
    (∀ (fs : ModuleFiles) (p : PyModule) (name : Bytes), (∀ d n, fs d n = true → 46 ∉ n) →
      moduleHasSubmodule fs p name = false) ∧
    ∃ (fs : ModuleFiles) (p : PyModule) (name : Bytes), (∀ d n, fs d n = true → 46 ∉ n) ∧ Spec.HasModule fs p name := by
  constructor
  · intro fs p name h
    cases hb : moduleHasSubmodule fs p name with
    | false => rfl
    | true =>
      obtain ⟨path, _, d, _, hd⟩ := (C113_submodule_partial fs p name).2.1 hb
      exact absurd (by simp) (h _ _ hd)
  · refine ⟨fun d n => d = b!"/lib/files" && n = b!"temp", ⟨b!"request_parser.files", some [b!"/lib/files"], none⟩, b!"temp", ?_, ?_⟩
    · intro d n h
      simp only [Bool.and_eq_true, decide_eq_true_eq] at h
      rw [h.2]
      decide
    · exact ⟨_, rfl, b!"/lib/files", by simp, by simp⟩

end Verif
