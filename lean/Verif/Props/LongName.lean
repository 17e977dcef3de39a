import Verif.Props.Exact
import Verif.Model.Load
/-!
# C141: what becomes of a long file name, and what the name of a temporary file takes from the client
-/

namespace Verif
open Spec

/-- `p` can be written as `stem ++ e`, where `e` is a dot and what follows the last dot of the last
component of `p`, and something else than dots precedes `e` in that component. -/
def Spec.HasExtension (p stem e : Bytes) : Prop :=
  p = stem ++ e ∧ (∃ t, e = 46 :: t ∧ 46 ∉ t ∧ 47 ∉ t) ∧ ∃ b, LastComponent stem b ∧ ∃ c ∈ b, c ≠ 46

/-- `e` is the extension of `p` and `stem` the rest; `e` is empty if there is no extension. -/
def Spec.Splits (p stem e : Bytes) : Prop :=
  HasExtension p stem e ∨ ((∀ s x, ¬ HasExtension p s x) ∧ stem = p ∧ e = [])

theorem Spec.HasExtension.unique {p s s' e e' : Bytes} (h : HasExtension p s e) (h' : HasExtension p s' e') :
    s = s' ∧ e = e' := by
  obtain ⟨rfl, ⟨t, rfl, h1, -⟩, -⟩ := h
  obtain ⟨h2, ⟨t', rfl, h3, -⟩, -⟩ := h'
  have a := Py.rfindChar_app (l := s) h1
  have b := Py.rfindChar_app (l := s') h3
  rw [h2, b] at a
  have hl : s.length = s'.length := by simpa using a.symm
  exact List.append_inj h2 hl

theorem lastComponent_exists (p : Bytes) : ∃ b, LastComponent p b := by
  cases h : Py.rfindChar 47 p with
  | none => exact ⟨p, Py.rfindChar_eq_none.1 h, .inl rfl⟩
  | some i =>
    obtain ⟨l, r, e, hr, -⟩ := Py.rfindChar_eq_some h
    exact ⟨r, hr, .inr ⟨l, e⟩⟩

/-- `os.path.splitext` splits a name where it has to. -/
theorem splitext_splits (p : Bytes) : Splits p (Py.splitext p).1 (Py.splitext p).2 := by
  unfold Py.splitext
  cases hd : Py.rfindChar 46 p with
  | none =>
    refine .inr ⟨?_, rfl, rfl⟩
    rintro s x ⟨rfl, ⟨t, rfl, -⟩, -⟩
    exact Py.rfindChar_eq_none.1 hd (by simp)
  | some dot =>
    obtain ⟨l, t, rfl, ht, rfl⟩ := Py.rfindChar_eq_some hd
    by_cases h47 : 47 ∈ t
    · obtain ⟨a, b, rfl, hb⟩ := Py.mem_split_last h47
      have hs : Py.rfindChar 47 (l ++ 46 :: (a ++ 47 :: b)) = some (l.length + a.length + 1) := by
        have := Py.rfindChar_app (l := l ++ 46 :: a) hb
        simpa [Nat.add_assoc] using this
      simp only [hs]
      rw [if_neg (fun h => absurd h.1 (by show ¬ l.length + a.length + 1 + 1 ≤ l.length; omega))]
      refine .inr ⟨?_, rfl, rfl⟩
      rintro s x ⟨h1, ⟨t', rfl, h2, h3⟩, -⟩
      have q1 := Py.rfindChar_app (l := s) h2
      rw [← h1, hd] at q1
      have := List.append_inj h1 (by simpa using q1)
      have h4 := this.2
      simp only [List.cons.injEq, true_and] at h4
      exact h3 (h4 ▸ by simp)
    · obtain ⟨b, hb⟩ := lastComponent_exists l
      have key : ∀ start, (l ++ 46 :: t).take l.length = l ∧ (l ++ 46 :: t).drop l.length = 46 :: t ∧
          (start ≤ l.length → l.drop start = b → 
          Splits (l ++ 46 :: t)
            (if start ≤ l.length ∧ (((l ++ 46 :: t).take l.length).drop start).any (· ≠ 46) then
              ((l ++ 46 :: t).take l.length, (l ++ 46 :: t).drop l.length) else (l ++ 46 :: t, [])).1
            (if start ≤ l.length ∧ (((l ++ 46 :: t).take l.length).drop start).any (· ≠ 46) then
              ((l ++ 46 :: t).take l.length, (l ++ 46 :: t).drop l.length) else (l ++ 46 :: t, [])).2) := by
        intro start
        have e1 : (l ++ 46 :: t).take l.length = l := by simp
        have e2 : (l ++ 46 :: t).drop l.length = 46 :: t := by simp
        refine ⟨e1, e2, ?_⟩
        intro hs hdr
        rw [e1, e2, hdr]
        by_cases ha : ∃ c ∈ b, c ≠ 46
        · rw [if_pos ⟨hs, by simpa using ha⟩]
          exact .inl ⟨rfl, ⟨t, rfl, ht, h47⟩, b, hb, ha⟩
        · rw [if_neg (fun h => ha (by simpa using h.2))]
          refine .inr ⟨?_, rfl, rfl⟩
          rintro s x ⟨h1, ⟨t', rfl, h2, h3⟩, b', hb', hc⟩
          have q1 := Py.rfindChar_app (l := s) h2
          rw [← h1, hd] at q1
          have h4 := (List.append_inj h1 (by simpa using q1)).1
          subst h4
          have : b' = b := by rw [← basename_last hb', basename_last hb]
          exact ha (this ▸ hc)
      have hn : 47 ∉ (46 :: t : Bytes) := by simpa using h47
      obtain ⟨hb1, rfl | ⟨dir, rfl⟩⟩ := hb
      · have : Py.rfindChar 47 (l ++ 46 :: t) = none :=
          Py.rfindChar_eq_none.2 (by simpa using ⟨hb1, h47⟩)
        simp only [this]
        exact (key 0).2.2 (by omega) rfl
      · have : Py.rfindChar 47 ((dir ++ 47 :: b) ++ 46 :: t) = some dir.length := by
          have := Py.rfindChar_app (l := dir) (r := b ++ 46 :: t) (c := 47) (by simpa using ⟨hb1, h47⟩)
          simpa using this
        simp only [this]
        exact (key (dir.length + 1)).2.2 (by simp) (by simp)

theorem Spec.Splits.unique {p s s' e e' : Bytes} (h : Splits p s e) (h' : Splits p s' e') : s = s' ∧ e = e' := by
  rcases h with h | ⟨h1, h2, h3⟩ <;> rcases h' with h' | ⟨h1', h2', h3'⟩
  · exact HasExtension.unique h h'
  · exact absurd h (h1' _ _)
  · exact absurd h' (h1 _ _)
  · exact ⟨h2.trans h2'.symm, h3.trans h3'.symm⟩

/-- **C141, the stored name**: a last component of more than 255 bytes is cut to 255 bytes, and it is cut
before its extension: the extension is kept whole if it has at most 255 bytes, and only its first 255 bytes
are kept otherwise. -/
theorem C141_name {n b stem e : Bytes} (h : LastComponent n b) (hl : 255 < b.length) (hs : Splits b stem e) :
    (e.length ≤ 255 → ∃ k, setName n = stem.take k ++ e ∧ k + e.length = 255 ∧ k < stem.length) ∧
    (255 < e.length → setName n = e.take 255) := by
  have hsp := Splits.unique (splitext_splits b) hs
  have hlen : stem.length + e.length = b.length := by
    rw [← hsp.1, ← hsp.2, ← List.length_append, splitext_app]
  have hset : setName n = stem.take (255 - (e.take 255).length) ++ e.take 255 := by
    unfold setName
    simp only [basename_last h]
    rw [if_pos (by omega), ← hsp.1, ← hsp.2]
  constructor
  · intro he
    refine ⟨255 - e.length, ?_, by omega, by omega⟩
    rw [hset, List.take_of_length_le he]
  · intro he
    rw [hset]
    simp [List.length_take, Nat.min_eq_left (Nat.le_of_lt he)]

/-- **C141, the temporary file**: what the name of a temporary file takes from the client's name is the
extension of that name, which is empty or a dot followed by bytes that are neither dots nor slashes. -/
theorem C141_suffix {p stem e : Bytes} (hs : Splits p stem e) :
    (Py.splitext p).2 = e ∧ (e = [] ∨ ∃ t, e = 46 :: t ∧ 46 ∉ t ∧ 47 ∉ t) := by
  refine ⟨(Splits.unique (splitext_splits p) hs).2, ?_⟩
  rcases hs with ⟨-, ⟨t, h⟩, -⟩ | ⟨-, -, h⟩
  · exact .inr ⟨t, h⟩
  · exact .inl h

/-- **C141, any handlers**: so the handlers never ask the operating system for a temporary file with a
suffix that has a slash: two operating systems that agree on the suffixes that are empty or a dot followed by
bytes that are neither dots nor slashes give the same handlers. -/
theorem C141_temp (ρ : Type) (os os' : Os) (n : Nat)
    (h : ∀ e, (e = [] ∨ ∃ t, e = 46 :: t ∧ 46 ∉ t ∧ 47 ∉ t) → os.tempFile e = os'.tempFile e) :
    builtinOps ρ os n = builtinOps ρ os' n := by
  have hf : ∀ p, os.tempFile (Py.splitext p).2 = os'.tempFile (Py.splitext p).2 := fun p =>
    h _ (C141_suffix (splitext_splits p)).2
  have ht : TempH.newFile os = TempH.newFile os' := by
    funext h a heap
    unfold TempH.newFile
    rw [hf]
  have hc : ConvH.newFile os = ConvH.newFile os' := by
    funext h a heap
    unfold ConvH.newFile
    rw [ht]
  have hw : ConvH.switch os = ConvH.switch os' := by
    funext h heap
    unfold ConvH.switch
    rw [ht]
  have hr : ConvH.receive os = ConvH.receive os' := by
    funext h raw heap
    unfold ConvH.receive
    rw [hw]
  have hbn : Builtin.newFile os = Builtin.newFile os' := by
    funext a b heap
    unfold Builtin.newFile
    rw [ht, hc]
  have hbr : Builtin.receive os = Builtin.receive os' := by
    funext raw b heap
    unfold Builtin.receive
    rw [hr]
  unfold builtinOps
  rw [hbn, hbr]

/-- A long name: 300 letters and an extension. -/
example : ∃ n b stem e, LastComponent n b ∧ 255 < b.length ∧ Splits b stem e ∧ e = b!".txt" ∧
    setName n = List.replicate 251 97 ++ b!".txt" := by
  have h1 : LastComponent (b!"dir/" ++ List.replicate 300 97 ++ b!".txt") (List.replicate 300 97 ++ b!".txt") :=
    ⟨by decide +kernel, .inr ⟨b!"dir", by decide +kernel⟩⟩
  have h2 : Splits (List.replicate 300 97 ++ b!".txt") (List.replicate 300 97) b!".txt" :=
    .inl ⟨rfl, ⟨b!"txt", rfl, by decide, by decide⟩, List.replicate 300 97, ⟨by decide +kernel, .inl rfl⟩, 97,
      by decide +kernel, by decide⟩
  exact ⟨_, _, _, _, h1, by decide +kernel, h2, rfl, by decide +kernel⟩

/-- A dot file has no extension, nor has a name whose only dot is in a directory; the last of several dots
counts. -/
example : Splits b!"x/..rc" b!"x/..rc" [] ∧ Splits b!"a.d/name" b!"a.d/name" [] ∧
    Splits b!"../a.tar.gz" b!"../a.tar" b!".gz" := by
  refine ⟨?_, ?_, ?_⟩
  · have := splitext_splits b!"x/..rc"
    have e : Py.splitext b!"x/..rc" = (b!"x/..rc", []) := by decide +kernel
    rwa [e] at this
  · have := splitext_splits b!"a.d/name"
    have e : Py.splitext b!"a.d/name" = (b!"a.d/name", []) := by decide +kernel
    rwa [e] at this
  · have := splitext_splits b!"../a.tar.gz"
    have e : Py.splitext b!"../a.tar.gz" = (b!"../a.tar", b!".gz") := by decide +kernel
    rwa [e] at this

/-- An operating system that cannot make files with a slash in their suffix is as good as one that can. -/
example (ρ : Type) (n : Nat) : builtinOps ρ ⟨fun e => if 47 ∈ e then .error .ioError else .ok ()⟩ n =
    builtinOps ρ ⟨fun _ => .ok ()⟩ n := by
  refine C141_temp ρ _ _ n ?_
  rintro e (rfl | ⟨t, rfl, -, h⟩)
  · rfl
  · simp [h]

end Verif
