import Verif.Props.Form
import Verif.Proofs.Keeps
import Verif.Props.Entry
/-!
# C29: an announced length over the limit loses every file
-/

namespace Verif
open Verif.Spec

/-- Every handler keeps files in memory only and has been told that the request is too long for that. -/
def AllOff (heap : Heap) (w : BWorld) : Prop :=
  (∀ b ∈ w.hs, ∃ h : MemoryH, b = .memory h ∧ h.activated = some false) ∧
    w.heap.map (fun o => (o.data, o.pos)) = heap.map (fun o => (o.data, o.pos))

theorem BWorld.on_off {α : Type} {heap : Heap} {f : Builtin → Heap → Res (Builtin × Heap) α}
    (hf : ∀ (h : MemoryH) (hp : Heap), h.activated = some false →
      ∃ h' hp', (f (.memory h) hp).2 = (.memory h', hp') ∧ h'.activated = some false ∧
        hp'.map (fun o => (o.data, o.pos)) = hp.map (fun o => (o.data, o.pos)))
    (w : BWorld) (i : Nat) (hw : AllOff heap w) : AllOff heap (w.on i f).2 := by
  unfold BWorld.on
  cases hb : w.hs[i]? with
  | none => exact hw
  | some b =>
    obtain ⟨h, rfl, ha⟩ := hw.1 b (List.mem_of_getElem? hb)
    obtain ⟨h', hp', e, ha', hh⟩ := hf h w.heap ha
    generalize hz : f (.memory h) w.heap = z at e
    rcases z with ⟨r, b', hp''⟩
    simp only [Prod.mk.injEq] at e
    obtain ⟨rfl, rfl⟩ := e
    simp only [hz]
    refine ⟨?_, hh.trans hw.2⟩
    intro b hb'
    rcases List.mem_or_eq_of_mem_set hb' with h1 | rfl
    · exact hw.1 b h1
    · exact ⟨h', rfl, ha'⟩

theorem close_data (heap : Heap) (h : MemoryH) :
    (Builtin.close (.memory h) heap).map (fun o => (o.data, o.pos)) = heap.map (fun o => (o.data, o.pos)) := by
  unfold Builtin.close
  simp only
  cases h.file with
  | none => rfl
  | some r =>
    simp only
    cases ho : heap[r]? with
    | none => rfl
    | some o =>
      simp only
      rw [List.map_set]
      apply List.ext_getElem?
      intro j
      rw [List.getElem?_set]
      split
      · rename_i e
        subst e
        split
        · simp [ho]
        · rename_i hl
          simp at hl
          have := (List.getElem?_eq_some_iff.1 ho).1
          omega
      · rfl

theorem allOff_keeps (ρ : Type) (os : Os) (n : Nat) (heap : Heap) :
    (builtinOps ρ os n).Keeps (AllOff heap) (fun _ => False) (fun _ => True) where
  newFiles := fun a w hw ha => newFiles_of_newFile (A := fun _ => True) (fun i a w hw _ => by
    refine BWorld.on_off ?_ w i hw
    intro h hp h1
    exact ⟨{ h with args := some a }, hp, by simp [Builtin.newFile, MemoryH.newFile, h1], h1, rfl⟩) a w hw ha
  receive := fun i d k w hw => by
    refine BWorld.on_off ?_ w i hw
    intro h hp h1
    exact ⟨h, hp, by simp [Builtin.receive, MemoryH.receive, h1], h1, rfl⟩
  fileComplete := fun i k w hw => by
    refine BWorld.on_off ?_ w i hw
    intro h hp h1
    exact ⟨h, hp, by simp [Builtin.fileComplete, MemoryH.fileComplete, h1], h1, rfl⟩
  complete := by
    intro i k w f hw he
    simp only [builtinOps, BWorld.on] at he
    cases hb : w.hs[i]? with
    | none => simp [hb] at he
    | some b =>
      obtain ⟨h, rfl, ha⟩ := hw.1 b (List.mem_of_getElem? hb)
      simp [hb, Builtin.fileComplete, MemoryH.fileComplete, ha] at he
  uploadComplete := fun i w hw => hw
  close := fun i w hw => by
    refine BWorld.on_off ?_ w i hw
    intro h hp h1
    exact ⟨h, _, rfl, h1, close_data hp h⟩

theorem items_nil {α : Type} {d : MVD α} (h : ∀ p ∈ items d, False) : items d = [] :=
  List.eq_nil_iff_forall_not_mem.2 h

/-- **C29 is false of the code for every body**: when the handlers keep files in memory only and the header announces
more bytes than they may keep (however long the body is), no file is ever stored: `FILES` is empty whenever parsing
returns, and no byte is written to any file, however parsing ends. -/
theorem C29_lost_refuted {ρ : Type} [Producer ρ] (C : Codecs) (S : Settings) (os : Os) (fuel64 : Nat) (m : MultiPart)
    (hs : List Builtin) (heap : Heap) (hm : ∀ b ∈ hs, ∃ h, b = .memory h) (hl : m.contentLength ≠ 0)
    (hlim : S.fileMaxMemory < m.contentLength) (input : LazyStream ρ) :
    (∀ post files, (m.parse C S (builtinOps ρ os hs.length) fuel64 input ⟨hs, heap⟩).1 = .ok (post, files) →
      items files = []) ∧
    (m.parse C S (builtinOps ρ os hs.length) fuel64 input ⟨hs, heap⟩).2.2.heap.map (fun o => (o.data, o.pos)) =
      heap.map (fun o => (o.data, o.pos)) := by
  have hraw := rawInputLoop_builtin (ρ := ρ) os hs.length ⟨m.contentLength, m.boundary, S⟩ input heap hs []
  simp only [List.length_nil, List.nil_append, ← List.range_eq_range'] at hraw
  have hI : AllOff heap ⟨hs.map (Builtin.rawInput ⟨m.contentLength, m.boundary, S⟩), heap⟩ := by
    refine ⟨?_, rfl⟩
    intro b hb
    obtain ⟨b0, h0, rfl⟩ := List.mem_map.1 hb
    obtain ⟨h, rfl⟩ := hm b0 h0
    refine ⟨_, rfl, ?_⟩
    simp only [MemoryH.rawInput, Option.some.injEq, decide_eq_false_iff_not]
    omega
  have := parse_keeps (allOff_keeps ρ os hs.length heap) (fun _ _ _ _ _ _ _ => trivial) C S fuel64 m hl input input _ _ hraw hI
  exact ⟨fun post files he => items_nil (this.2 post files he), this.1.2⟩

/-- The hypotheses hold of two handlers and 2^30 announced bytes, whatever is then sent. -/
example (input : LazyStream Source) (post) (files)
    (h : ((⟨b!"B", 64, 2 ^ 30⟩ : MultiPart).parse latinCodecs {} (builtinOps Source goodOs 2) 100 input
      { hs := [.memory {}, .memory {}] }).1 = .ok (post, files)) : items files = [] :=
  (C29_lost_refuted latinCodecs {} goodOs 100 ⟨b!"B", 64, 2 ^ 30⟩ [.memory {}, .memory {}] [] (by simp) (by decide)
    (by decide) input).1 post files h

/-- And an upload of one file is accepted without it. -/
example : (match ((⟨b!"B", 64, 2 ^ 30⟩ : MultiPart).parse latinCodecs {} (builtinOps Source goodOs 2) 100
      (LazyStream.mk' ⟨[oneFile]⟩) { hs := [.memory {}, .memory {}] }).1 with
    | .ok (_, files) => some (items files).length
    | .error _ => none) = some 0 := by decide +kernel

end Verif
