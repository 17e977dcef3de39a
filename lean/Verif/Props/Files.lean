import Verif.Props.Reading
/-!
# Which parts of a body become files (C26)
-/

namespace Verif
open Spec

/-- `P` is a part of the body `D` and `rest` is what follows its separator (nothing if it is the last). -/
inductive Spec.PartAt (sep : Bytes) : Bytes → Bytes → Bytes → Prop where
  | here {D} : D ≠ [] → PartAt sep D (cut sep D) (after sep D)
  | there {D P rest} : D ≠ [] → PartAt sep (after sep D) P rest → PartAt sep D P rest

/-- The part `P` is a file of the given field name, file name and bytes. -/
def Spec.IsFile (C : Codecs) (P : Bytes) (x : Bytes × Bytes × Bytes) : Prop :=
  ∃ md content d n, PartHead C P .file md content ∧ partName md = some (d, n) ∧ forceText n.strip = .ok x.1 ∧
    dispositionFileName d = .ok x.2.1 ∧ x.1 ≠ [] ∧ x.2.1 ≠ [] ∧ FileData (transferEnc md) content x.2.2 ∧ x.2.2 ≠ []

theorem FileData.unique {te : Option Bytes} {c d d' : Bytes} (h : FileData te c d) (h' : FileData te c d') : d = d' := by
  unfold FileData at h h'
  split at h
  · rename_i hb
    rw [if_pos hb] at h'
    have := h.decode.symm.trans h'.decode
    simpa using this
  · rename_i hb
    rw [if_neg hb] at h'
    rw [h, h']

theorem PartReads.files {C : Codecs} {S : Settings} {t : ItemType} {md : MetaData} {content : Bytes} {short : Prop}
    {g g' : Ghost} (h : PartReads C S t md content short g.close (.ok g')) :
    g'.files = g.close.files := by
  cases h <;> rfl

theorem Reads.mono {C : Codecs} {S : Settings} {sep D : Bytes} {g g' : Ghost} {res : Except Exc Ghost}
    (h : Reads C S sep D g res) (hr : res = .ok g') :
    (∀ x ∈ g.files, x ∈ g'.files) ∧ (D ≠ [] → ∀ x ∈ g.close.files, x ∈ g'.files) := by
  induction h with
  | done =>
    cases hr
    exact ⟨fun x h => h, fun h => absurd rfl h⟩
  | rest =>
    cases hr
    exact ⟨fun x h => by simp [Ghost.close, h], fun _ x h => h⟩
  | bad => cases hr
  | partErr => cases hr
  | @part D g g1 t md content res h1 h2 h3 h4 ih =>
    have hf := PartReads.files h3
    have := (ih hr).1
    rw [hf] at this
    exact ⟨fun x h => this x (by simp [Ghost.close, h]), fun _ => this⟩

theorem cut_of_no_sep {sep D : Bytes} (h : ¬ sep <:+: D) : after sep D = [] := (cut_last h).2

/-- Reading a body that means something keeps every file that is followed by something after its
separator, and nothing else. -/
theorem Reads.files {C : Codecs} {S : Settings} {sep D : Bytes} {g g' : Ghost} {res : Except Exc Ghost}
    (h : Reads C S sep D g res) (hr : res = .ok g') :
    (∀ P rest x, PartAt sep D P rest → rest ≠ [] → IsFile C P x → x ∈ g'.files) ∧
    (∀ x ∈ g'.files, x ∈ g.close.files ∨ ∃ P rest, PartAt sep D P rest ∧ rest ≠ [] ∧ IsFile C P x) := by
  induction h with
  | done =>
    cases hr
    refine ⟨fun P rest x hp _ _ => ?_, fun x hx => .inl (by simp [Ghost.close, hx])⟩
    cases hp <;> contradiction
  | @rest D g h0 h1 h2 =>
    cases hr
    refine ⟨fun P rest x hp hne _ => ?_, fun x hx => .inl hx⟩
    have := cut_of_no_sep h1
    cases hp with
    | here => exact absurd this hne
    | there _ hp =>
      rw [this] at hp
      cases hp <;> contradiction
  | bad => cases hr
  | partErr => cases hr
  | @part D g g1 t md content res h1 h2 h3 h4 ih =>
    obtain ⟨i1, i2⟩ := ih hr
    have hm := Reads.mono h4 hr
    constructor
    · intro P rest x hp hne hx
      cases hp with
      | here _ =>
        obtain ⟨md', content', d', n', k1, k2, k3, k4, k5, k6, k7, k8⟩ := hx
        obtain ⟨rfl, rfl, rfl⟩ := h2.unique k1
        apply hm.2 hne
        cases h3 with
        | unnamed h _ => rw [k2] at h; cases h
        | field _ _ h => cases h
        | lost _ _ h => cases h
        | noFile a1 _ _ a4 =>
          rw [k2] at a1; cases a1
          rw [k4] at a4
          simp only [Except.ok.injEq] at a4
          exact absurd a4 k6
        | @file d n name fn data a1 a2 a3 a4 a5 a6 a7 a8 =>
          rw [k2] at a1; cases a1
          rw [k3] at a2
          rw [k4] at a4
          simp only [Except.ok.injEq] at a2 a4
          have := FileData.unique k7 a7
          simp [Ghost.close, ← a2, ← a4, ← this]
      | there _ hp => exact i1 P rest x hp hne hx
    · intro x hx
      by_cases hend : after sep D = []
      · rw [hend] at h4
        cases h4 with
        | done =>
          cases hr
          rw [PartReads.files h3] at hx
          exact .inl hx
        | _ => contradiction
      rcases i2 x hx with h | ⟨P, rest, a1, a2, a3⟩
      · have hcase : x ∈ g.close.files ∨ g1.old = some x := by
          have hf := PartReads.files h3
          have : g1.close.files = g1.files ++ g1.old.toList := rfl
          rw [this, List.mem_append, hf] at h
          rcases h with h | h
          · exact .inl h
          · exact .inr (by simpa using h)
        rcases hcase with h | h
        · exact .inl h
        · right
          refine ⟨_, _, .here h1, hend, ?_⟩
          · cases h3 with
            | @file d n name fn data a1 a2 a3 a4 a5 a6 a7 a8 =>
              cases h
              subst a3
              exact ⟨md, content, d, n, h2, a1, a2, a4, a6, a5, a7, a8⟩
            | _ => simp [Ghost.close] at h
      · exact .inr ⟨P, rest, .there h1 a1, a2, a3⟩

/-- **C26, the part that holds, in general**: for every body that means something (`Spec.Reads`), the
files in `FILES` are exactly the non-empty file parts (with a field name and a file name) for which
something follows the separator.  Missing: empty files and a final file with nothing after its separator
(see `C26_empty_refuted`, `C26_last_refuted`). -/
theorem C26_exact_partial {ρ : Type} [Producer ρ] {L : Lawful ρ} (C : Codecs) (hC : ∀ b, C.Avoids (.stopUpload b))
    (S : Settings) (hS : ∀ k, S.dataMaxMemory = some k → 0 ≤ k) (hq : emptyQueryDict C S = .ok ())
    (os : Os) (hos : ∀ e, os.tempFile e = .ok ()) (fuel64 : Nat) (m : MultiPart) (hc : 1 ≤ m.chunkSize)
    (hl : m.contentLength ≠ 0) (hs : List Builtin) (heap : Heap) (ht : Takes S m.contentLength hs)
    (input : LazyStream ρ) (hi : SOK L input) (hf : (L.sc input).length ≤ fuel64)
    (g : Ghost) (hb : Reads C S (b!"--" ++ m.boundary) (L.sc input) ⟨[], [], none, 0, 0⟩ (.ok g)) :
    ∃ files : List (Bytes × Bytes × Bytes),
      viewOf (m.parse C S (builtinOps ρ os hs.length) fuel64 input ⟨hs, heap⟩).1
        (m.parse C S (builtinOps ρ os hs.length) fuel64 input ⟨hs, heap⟩).2.2.heap = .ok (g.post,
          files.foldl (fun d p => MVD.append d p.1 (setName p.2.1, p.2.2.length, some p.2.2)) []) ∧
      ∀ x, x ∈ files ↔ ∃ P rest, PartAt (b!"--" ++ m.boundary) (L.sc input) P rest ∧ rest ≠ [] ∧ IsFile C P x := by
  refine ⟨g.files, C85_meaning C hC S hS hq os hos fuel64 m hc hl hs heap ht input hi hf _ hb, fun x => ?_⟩
  obtain ⟨h1, h2⟩ := Reads.files hb rfl
  constructor
  · intro hx
    rcases h2 x hx with h | h
    · simp [Ghost.close] at h
    · exact h
  · rintro ⟨P, rest, a1, a2, a3⟩
    exact h1 P rest x a1 a2 a3

/-- The hypotheses of C26 and C85 can be met for every chunk size and cutting of the body. -/
example (k : Nat) (hk : 1 ≤ k) (cs : List Bytes) (h : cs.flatten = settledBody) :=
  C26_exact_partial (L := Source.lawful) latinCodecs (fun b => latin_avoids (by simp) (by simp)) {}
    (fun k h => by cases h; decide) rfl goodOs (fun _ => rfl) 1000 ⟨b!"B", k, 1000⟩ hk (by simp)
    [.memory {}, .conv {}] [] ⟨⟨.conv {}, by simp, trivial⟩, by intro h hh _; decide⟩
    (LazyStream.mk' ⟨cs⟩) (SOK.fresh cs) (by rw [sc_fresh, h]; decide +kernel) _ (by
      rw [sc_fresh, h]; exact settledBody_reads)

end Verif
