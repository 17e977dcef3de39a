import Verif.Props.Limits
/-!
# C21, the reads: a form field is never read beyond what is left of the memory limit

`Visits` names the moments at which the loop over the parts of a body hands a part to
`handlePart`: the part (its type, its headers and its stream, positioned behind the headers) and
the state of the parser at that moment.
-/

namespace Verif
open Spec

section
variable {ρ σ F : Type} [Producer ρ]

/-- Reading the parts from the stream `s` in the state `st`, the parser gets to a part of type `t`
with headers `md` and the stream `sub`, in the state `st'`, all parts before it having been handled
without an exception (`http/multipartparser.py:150`). -/
inductive Visits (C : Codecs) (S : Settings) (H : HandlerOps ρ σ F) (fuel64 : Nat) (sep : Bytes) :
    LazyStream (ChunkIter ρ) → PState σ F →
    ItemType → MetaData → LazyStream (BoundaryIter (ChunkIter ρ)) → PState σ F → Prop where
  | here {s st sub s1 t md sub1} : nextPart s sep = (.ok (some sub), s1) →
      parseBoundaryStream C sub 1024 = (.ok (t, md), sub1) →
      Visits C S H fuel64 sep s st t md sub1 st
  | next {s st sub s1 t md sub1 sub2 st1 t' md' sub' st'} : nextPart s sep = (.ok (some sub), s1) →
      parseBoundaryStream C sub 1024 = (.ok (t, md), sub1) →
      handlePart C S H fuel64 t md sub1 st = (.ok (), sub2, st1) →
      Visits C S H fuel64 sep sub2.producer.stream st1 t' md' sub' st' →
      Visits C S H fuel64 sep s st t' md' sub' st'

/-- A part that the loop gets to is handled by the loop: if that raises, so does the loop, and leaves
the state as `handlePart` left it. -/
theorem Visits.raises {C : Codecs} {S : Settings} {H : HandlerOps ρ σ F} {fuel64 : Nat} {sep : Bytes}
    {s st t md sub st'} (h : Visits C S H fuel64 sep s st t md sub st') {e sub1 st1}
    (hp : handlePart C S H fuel64 t md sub st' = (.error e, sub1, st1)) :
    ∃ n, ∀ fuel, n < fuel →
      partsLoop C S H fuel64 sep fuel s st = (.error e, sub1.producer.stream, st1) := by
  induction h with
  | here h1 h2 =>
    refine ⟨0, fun fuel hf => ?_⟩
    obtain ⟨fuel, rfl⟩ := Nat.exists_eq_succ_of_ne_zero (Nat.pos_iff_ne_zero.1 hf)
    simp only [partsLoop, h1, h2, hp]
  | next h1 h2 h3 _ ih =>
    obtain ⟨n, hn⟩ := ih hp
    refine ⟨n + 1, fun fuel hf => ?_⟩
    obtain ⟨fuel, rfl⟩ := Nat.exists_eq_succ_of_ne_zero (show fuel ≠ 0 by omega)
    simp only [partsLoop, h1, h2, h3]
    exact hn fuel (by omega)

variable {L : Lawful ρ}

theorem handleField_tell {τ : Type} [Producer τ] {L : Lawful τ} (C : Codecs) (S : Settings) (n : Int)
    (hn : S.dataMaxMemory = some n) (name : Bytes) (te : Option Bytes) (md : MetaData)
    (s : LazyStream τ) (st : PState σ F) (hs : SOK L s) (hb : (st.numBytes : Int) ≤ n) {r s' st'}
    (h : handleField C S name te md s st = (r, s', st')) :
    s'.tell - s.tell ≤ n - st.numBytes := by
  unfold handleField at h
  simp only at h
  split at h
  · simp only [Prod.mk.injEq] at h
    obtain ⟨_, rfl, _⟩ := h
    omega
  · obtain ⟨k, hk⟩ := Int.eq_ofNat_of_zero_le (show 0 ≤ n - (st.numBytes : Int) by omega)
    obtain ⟨s1, a1, _, _, a4, _⟩ := LazyStream.read_ok L 39 (le_refl _) k s hs.inv hs.hist
    simp only [hn, Option.map_some, hk] at h
    have a1' : s.read (some (k : Int)) = (.ok ((L.sc s).take k), s1) := a1
    rw [a1'] at h
    simp only at h
    rcases hst : storeField C S name te md ((L.sc s).take k) { st with numKeys := st.numKeys + 1 } with ⟨r1, st2⟩
    rw [hst] at h
    simp only [Prod.mk.injEq] at h
    obtain ⟨_, rfl, _⟩ := h
    simp only [LazyStream.tell, a4]
    omega

theorem handlePart_tell {τ : Type} [Producer τ] {L : Lawful τ} (C : Codecs) (S : Settings) (H : HandlerOps ρ σ F)
    (fuel64 : Nat) (n : Int) (hn : S.dataMaxMemory = some n) (md : MetaData)
    (s : LazyStream τ) (st : PState σ F) (hs : SOK L s) (hb : (st.numBytes : Int) ≤ n) {r s' st'}
    (h : handlePart C S H fuel64 .field md s st = (r, s', st')) :
    s'.tell - s.tell ≤ n - st.numBytes := by
  unfold handlePart at h
  rcases hc : completeOld H st with ⟨(e | _), st1⟩
  · rw [hc] at h
    simp only [Prod.mk.injEq] at h
    obtain ⟨_, rfl, _⟩ := h
    omega
  · obtain ⟨hb1, _, _⟩ := completeOld_num hc
    rw [hc] at h
    simp only at h
    split at h
    · simp only [Prod.mk.injEq] at h
      obtain ⟨_, rfl, _⟩ := h
      omega
    · split at h
      · simp only [Prod.mk.injEq] at h
        obtain ⟨_, rfl, _⟩ := h
        omega
      · have := handleField_tell C S n hn _ _ _ _ _ hs (by rw [hb1]; exact hb) h
        rw [hb1] at this
        exact this

theorem Visits.counted {C : Codecs} {S : Settings} {H : HandlerOps ρ σ F} {fuel64 : Nat} {sep : Bytes}
    (hsep : SepOK sep) (L : Lawful (ChunkIter ρ)) {s st t md sub st'}
    (h : Visits C S H fuel64 sep s st t md sub st')
    (hI : L.Inv s.producer) (hH : Strong s.history s.leftover.length) (hl : s.length = none)
    (hc : Counted C S st) :
    ∃ D N, SOK (BoundaryIter.lawful L ChunkIter.nonEmpty hsep D N false) sub ∧ Counted C S st' := by
  induction h with
  | @here s st sub s1 t md sub1 h1 h2 =>
    rcases nextPart_spec L ChunkIter.nonEmpty hsep s hI hH hl with
      ⟨s', e, _⟩ | ⟨b, e, b1, b2, b3, b4⟩
    · rw [h1] at e; simp at e
    · rw [h1] at e
      simp only [Prod.mk.injEq, Except.ok.injEq, Option.some.injEq] at e
      rcases parseBoundaryStream_spec L C ChunkIter.nonEmpty hsep (L.sc s) s.size b1 b b2 b3 b4 with
        ⟨_, s', a1, _⟩ | ⟨t, md, content, s', a1, a2, a3, _⟩
      · rw [← e.1, h2] at a1; simp at a1
      · rw [← e.1, h2] at a1
        simp only [Prod.mk.injEq, Except.ok.injEq] at a1
        exact ⟨_, _, a1.2 ▸ a3, hc⟩
  | @next s st sub s1 t md sub1 sub2 st1 t' md' sub' st' h1 h2 h3 _ ih =>
    rcases nextPart_spec L ChunkIter.nonEmpty hsep s hI hH hl with
      ⟨s', e, _⟩ | ⟨b, e, b1, b2, b3, b4⟩
    · rw [h1] at e; simp at e
    · rw [h1] at e
      simp only [Prod.mk.injEq, Except.ok.injEq, Option.some.injEq] at e
      rcases parseBoundaryStream_spec L C ChunkIter.nonEmpty hsep (L.sc s) s.size b1 b b2 b3 b4 with
        ⟨_, s', a1, _⟩ | ⟨t2, md2, content, s', a1, a2, a3, _⟩
      · rw [← e.1, h2] at a1; simp at a1
      · rw [← e.1, h2] at a1
        simp only [Prod.mk.injEq, Except.ok.injEq] at a1
        obtain ⟨⟨rfl, rfl⟩, rfl⟩ := a1
        obtain ⟨bb, r, s2, st2, c1, c2, c3, _⟩ := handlePart_spec C S H fuel64 t md sub1 st a3 (partHead_raw a2)
        rw [h3] at c1
        simp only [Prod.mk.injEq] at c1
        obtain ⟨rfl, rfl, rfl⟩ := c1
        obtain ⟨g1, g2, _, _, _, g6, _⟩ := lawful_progress L ChunkIter.nonEmpty hsep _ _ b1 _ c2
        rcases c3.counted hc with ⟨_, hc'⟩ | ⟨⟨_, h⟩, _⟩
        · exact ih g1 g2 g6 hc'
        · simp at h

/-- **C21**, the reads: whenever the parser handles a form field, it takes from the stream of the part at
most as many bytes as the memory limit leaves after the fields stored so far.  (`tell()` counts the
bytes handed out by the stream; the field may be refused afterwards.)  For every body, boundary, chunk
size and way of receiving the body, and any handlers. -/
theorem C21_reads (C : Codecs) (S : Settings) (H : HandlerOps ρ σ F) (fuel64 : Nat) (m : MultiPart)
    (hc : 1 ≤ m.chunkSize) (hcs : ∀ b k, C.strEncode S.defaultCharset b = .ok k → k = b)
    (n : Int) (hn : S.dataMaxMemory = some n) (hn0 : 0 ≤ n) (hf : ∀ k, S.maxFields = some k → 0 ≤ k)
    (input : LazyStream ρ) (hi : SOK L input) (w : σ) {md sub st}
    (h : Visits C S H fuel64 (b!"--" ++ m.boundary) (LazyStream.mk' ⟨input, m.chunkSize⟩) (PState.start H w)
      .field md sub st) {r sub' st'}
    (hp : handlePart C S H fuel64 .field md sub st = (r, sub', st')) :
    sub'.tell - sub.tell ≤ n - ((items st.post).map fieldSize).sum := by
  obtain ⟨D, N, h1, h2⟩ := h.counted (SepOK.dashes m.boundary) (ChunkIter.lawful L) ⟨hi.inv, hc, hi.hist⟩
    (strong_nil_mk _) rfl (Counted.start H w (by simp [hn]; omega)
      (by cases hd : S.maxFields with
        | none => rfl
        | some k => have := hf k hd; simp; omega))
  have hb := h2.within.bytes
  have := h2.bytes hcs
  simp only [hn, Option.any_some, decide_eq_false_iff_not, not_lt] at hb
  have := handlePart_tell C S H fuel64 n hn md sub st h1 hb hp
  omega

end

/-- A body with two fields; the second is longer than what the limit of 9 bytes leaves. -/
def budgetBody : Bytes :=
  b!"--B\r\nContent-Disposition: form-data; name=\"a\"\r\n\r\nxy\r\n--B\r\nContent-Disposition: form-data; name=\"b\"\r\n\r\n0123456789\r\n--B--"

def budgetStart : LazyStream (ChunkIter Source) := LazyStream.mk' ⟨LazyStream.mk' ⟨[budgetBody]⟩, 7⟩

def noHandlers : HandlerOps Source BWorld Uploaded := builtinOps Source goodOs 0

/-- One step of the loop from `s` and `st`: the bytes read from the part, whether it was
handled, and what follows. -/
def budgetStep (n : Int) (s : LazyStream (ChunkIter Source)) (st : PState BWorld Uploaded) :
    Option (Int × Bool × LazyStream (ChunkIter Source) × PState BWorld Uploaded) :=
  match nextPart s b!"--B" with
  | (.ok (some sub), _) =>
    match parseBoundaryStream latinCodecs sub 1024 with
    | (.ok (t, md), sub1) =>
      match handlePart latinCodecs { dataMaxMemory := some n } noHandlers 10 t md sub1 st with
      | (r, sub2, st') => some (sub2.tell - sub1.tell, r.toOption.isSome, sub2.producer.stream, st')
    | _ => none
  | _ => none

/- The field `a` takes 2 + 1 + 2 of the 9 bytes; of the ten bytes of `b` four are read. -/
example : ((budgetStep 9 budgetStart (PState.start noHandlers ⟨[], []⟩)).bind fun x =>
    (budgetStep 9 x.2.2.1 x.2.2.2).bind fun y => (budgetStep 9 y.2.2.1 y.2.2.2).map fun z =>
      ((x.1, x.2.1), (y.1, y.2.1), (z.1, z.2.1))) = some ((0, true), (2, true), (4, false)) := by
  decide +kernel

end Verif
