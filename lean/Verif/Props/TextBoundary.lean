import Verif.Proofs.TextBoundary
import Verif.Props.Limits
/-!
# Boundaries in the extended notation (C106)

A boundary may be given as `boundary*=charset'lang'value`; it is then a `unicode` object.
-/

namespace Verif
open Spec
section
variable {ρ σ F : Type} [Producer ρ] {L : Lawful ρ}

/-- Parsing with a text boundary, after the handlers declined to parse themselves. -/
theorem parseText_alike (C : Codecs) (S : Settings) (H : HandlerOps ρ σ F) (fuel64 : Nat) (m : MultiPart)
    (hc : 1 ≤ m.chunkSize) (h0 : m.contentLength ≠ 0) {input input1 : LazyStream ρ} {w w1 : σ}
    (hraw : rawInputLoop H { contentLength := m.contentLength, boundary := m.boundary, settings := S }
      (List.range H.count) input w = (.ok none, input1, w1)) (h1 : SOK L input1) :
    (¬ Py.isAscii (L.sc input1) = true ∧ (m.parseText C S H fuel64 input w).1 = .error .unicodeDecodeError) ∨
    (m.parseText C S H fuel64 input w = m.parse C S H fuel64 input w ∧
      (Py.isAscii (L.sc input1) = true ∨ emptyQueryDict C S ≠ .ok () ∨
        (partsLoop C S H fuel64 (b!"--" ++ m.boundary)
          (LazyStream.size (LazyStream.mk' (⟨input1, m.chunkSize⟩ : ChunkIter ρ)) + 1)
          (LazyStream.mk' (⟨input1, m.chunkSize⟩ : ChunkIter ρ)) (PState.start H w1)).1 ≠ .ok ())) := by
  unfold MultiPart.parseText MultiPart.parse
  rw [if_neg h0, if_neg h0, hraw]
  simp only
  cases hq : emptyQueryDict C S with
  | error e => exact .inr ⟨rfl, .inr (.inl (by simp))⟩
  | ok u =>
    simp only
    have hb : AsciiSoFar (ChunkIter.lawful L) (L.sc input1) (LazyStream.mk' (⟨input1, m.chunkSize⟩ : ChunkIter ρ)) :=
      ⟨⟨h1.inv, hc, h1.hist⟩, [], rfl, rfl⟩
    rcases textPartsLoop_alike C S H fuel64 (b!"--" ++ m.boundary)
      (LazyStream.size (LazyStream.mk' (⟨input1, m.chunkSize⟩ : ChunkIter ρ)) + 1)
      { world := w1, counters := List.replicate H.count 0 } hb with ⟨hF, ⟨s2, st⟩, e⟩ | ⟨e, ha⟩
    · rw [e]
      exact .inl ⟨hF, rfl⟩
    · rw [e]
      refine .inr ⟨rfl, ?_⟩
      unfold PState.start
      by_cases hr : (partsLoop C S H fuel64 (b!"--" ++ m.boundary)
          (LazyStream.size (LazyStream.mk' (⟨input1, m.chunkSize⟩ : ChunkIter ρ)) + 1)
          (LazyStream.mk' (⟨input1, m.chunkSize⟩ : ChunkIter ρ))
          { world := w1, counters := List.replicate H.count 0 }).1 = .ok ()
      · exact .inl (ha hr)
      · exact .inr (.inr hr)

theorem isAscii_suffix {a b : Bytes} (h : a <:+ b) (hb : Py.isAscii b = true) : Py.isAscii a = true := by
  obtain ⟨c, rfl⟩ := h
  rw [isAscii_append, Bool.and_eq_true] at hb
  exact hb.2

/-- When no parts are read, the kind of the boundary is not looked at. -/
theorem parseText_raw (C : Codecs) (S : Settings) (H : HandlerOps ρ σ F) (fuel64 : Nat) (m : MultiPart)
    (input : LazyStream ρ) (w : σ)
    (h : m.contentLength = 0 ∨ ∀ s w', rawInputLoop H ⟨m.contentLength, m.boundary, S⟩ (List.range H.count) input w ≠
      (.ok none, s, w')) :
    m.parseText C S H fuel64 input w = m.parse C S H fuel64 input w := by
  unfold MultiPart.parseText MultiPart.parse
  by_cases h0 : m.contentLength = 0
  · rw [if_pos h0, if_pos h0]
  · rw [if_neg h0, if_neg h0]
    rcases hr : rawInputLoop H ⟨m.contentLength, m.boundary, S⟩ (List.range H.count) input w with ⟨e | _ | r, s1, w1⟩
    · rfl
    · rcases h with h | h
      · exact absurd h h0
      · exact absurd hr (h s1 w1)
    · rfl

/-- **C106, the part that holds**: a boundary in the extended notation means the same as the plain one for bodies that
are ASCII: results, effects on the handlers and the rest of the input are the same.  Missing: other bodies
(`C106_refuted`). -/
theorem C106_ascii_partial (C : Codecs) (S : Settings) (H : HandlerOps ρ σ F) (fuel64 : Nat) (m : MultiPart)
    (hc : 1 ≤ m.chunkSize) (hl : LeavesParsing L H) (input : LazyStream ρ) (w : σ) (hi : SOK L input)
    (ha : ∀ c ∈ L.sc input, c < 128) :
    m.run C S H fuel64 true input w = m.run C S H fuel64 false input w := by
  have ha' : Py.isAscii (L.sc input) = true := by simpa [Py.isAscii] using ha
  change m.parseText C S H fuel64 input w = m.parse C S H fuel64 input w
  by_cases h0 : m.contentLength = 0
  · exact parseText_raw C S H fuel64 m input w (.inl h0)
  rcases rawInputLoop_leaves hl ⟨m.contentLength, m.boundary, S⟩ (List.range H.count) input w hi with
    ⟨e, s', w', a1, -⟩ | ⟨input1, w1, a1, a2, a3⟩
  · exact parseText_raw C S H fuel64 m input w (.inr (by intro s w' h; rw [a1] at h; cases h))
  · rcases parseText_alike C S H fuel64 m hc h0 a1 a2 with ⟨h, -⟩ | ⟨h, -⟩
    · exact absurd (isAscii_suffix a3 ha') h
    · exact h

/-- **C106**, any body: a boundary in the extended notation means the same as the plain one or the parser raises
`UnicodeDecodeError`. -/
theorem C106_same_partial (C : Codecs) (S : Settings) (H : HandlerOps ρ σ F) (fuel64 : Nat) (m : MultiPart)
    (hc : 1 ≤ m.chunkSize) (hl : LeavesParsing L H) (input : LazyStream ρ) (w : σ) (hi : SOK L input) :
    (m.run C S H fuel64 true input w).1 = .error .unicodeDecodeError ∨
    m.run C S H fuel64 true input w = m.run C S H fuel64 false input w := by
  change (m.parseText C S H fuel64 input w).1 = _ ∨ m.parseText C S H fuel64 input w = m.parse C S H fuel64 input w
  by_cases h0 : m.contentLength = 0
  · exact .inr (parseText_raw C S H fuel64 m input w (.inl h0))
  rcases rawInputLoop_leaves hl ⟨m.contentLength, m.boundary, S⟩ (List.range H.count) input w hi with
    ⟨e, s', w', a1, -⟩ | ⟨input1, w1, a1, a2, a3⟩
  · exact .inr (parseText_raw C S H fuel64 m input w (.inr (by intro s w' h; rw [a1] at h; cases h)))
  · rcases parseText_alike C S H fuel64 m hc h0 a1 a2 with ⟨-, h⟩ | ⟨h, -⟩
    · exact .inl h
    · exact .inr h

/-- **C106**: what parsing with such a boundary can raise, as C67 for plain ones. -/
theorem C106_exceptions_partial (C : Codecs) (S : Settings) (H : HandlerOps ρ σ F) (fuel64 : Nat)
    (m : MultiPart) (hc : 1 ≤ m.chunkSize) (hl : LeavesParsing L H) (e : Exc)
    (hH : H.Avoids e) (hC : C.Avoids e) (hmem : ∀ k, S.dataMaxMemory = some k → 0 ≤ k)
    (input : LazyStream ρ) (w : σ) (hi : SOK L input) {s' w'}
    (h : m.run C S H fuel64 true input w = (.error e, s', w')) :
    ParserExc e ∨ e = .unicodeDecodeError ∨
    (e = .diverge ∧ ∃ D, D <:+ L.sc input ∧ SpinPart C fuel64 (cut (b!"--" ++ m.boundary) D)) := by
  rcases C106_same_partial C S H fuel64 m hc hl input w hi with h1 | h1
  · rw [h] at h1
    exact .inr (.inl (by simpa using h1))
  · rw [h1] at h
    rcases C67_exceptions C S H fuel64 m hc hl e hH hC hmem input w hi h with h | h
    · exact .inl h
    · exact .inr (.inr h)

theorem rawInputLoop_same {H : HandlerOps ρ σ F} (hs : ∀ i a s w, L.sc (H.rawInput i a s w).2.1 = L.sc s) (a : RawArgs) :
    ∀ (is : List Nat) (s : LazyStream ρ) (w : σ), L.sc (rawInputLoop H a is s w).2.1 = L.sc s := by
  intro is
  induction is with
  | nil => intro s w; rfl
  | cons i is ih =>
    intro s w
    unfold rawInputLoop
    have := hs i a s w
    rcases hr : H.rawInput i a s w with ⟨e | _ | r, s1, w1⟩ <;> rw [hr] at this
    · exact this
    · exact (ih s1 w1).trans this
    · exact this

/-- **C106 is false of the code**: every body with a byte outside ASCII that is parsed without exception with the plain
boundary is refused with `UnicodeDecodeError` if the same boundary is given in the extended notation (no handler reads the
body itself or stops the upload). -/
theorem C106_refuted (C : Codecs) (S : Settings) (H : HandlerOps ρ σ F) (fuel64 : Nat) (m : MultiPart)
    (hc : 1 ≤ m.chunkSize) (h0 : m.contentLength ≠ 0) (hl : LeavesParsing L H)
    (hs : ∀ i a s w, L.sc (H.rawInput i a s w).2.1 = L.sc s)
    (hH : ∀ b, H.Avoids (.stopUpload b)) (hC : ∀ b, C.Avoids (.stopUpload b))
    (hmem : ∀ k, S.dataMaxMemory = some k → 0 ≤ k)
    (input : LazyStream ρ) (w : σ) (hi : SOK L input) {c : UInt8} (hcm : c ∈ L.sc input) (hca : 128 ≤ c) {x s' w'}
    (h : m.run C S H fuel64 false input w = (.ok x, s', w')) :
    (m.run C S H fuel64 true input w).1 = .error .unicodeDecodeError := by
  change m.parse C S H fuel64 input w = _ at h
  change (m.parseText C S H fuel64 input w).1 = _
  rcases rawInputLoop_leaves hl ⟨m.contentLength, m.boundary, S⟩ (List.range H.count) input w hi with
    ⟨e, s2, w2, a1, -⟩ | ⟨input1, w1, a1, a2, a3⟩
  · unfold MultiPart.parse at h
    rw [if_neg h0, a1] at h
    cases h
  have hsc : L.sc input1 = L.sc input := by
    have := rawInputLoop_same hs ⟨m.contentLength, m.boundary, S⟩ (List.range H.count) input w
    rw [a1] at this
    exact this
  have hna : ¬ Py.isAscii (L.sc input1) = true := by
    rw [hsc]
    intro hh
    simp only [Py.isAscii, List.all_eq_true, decide_eq_true_eq] at hh
    have := hh c hcm
    exact absurd this (UInt8.not_lt.2 hca)
  rcases parseText_alike C S H fuel64 m hc h0 a1 a2 with ⟨-, h2⟩ | ⟨-, h2⟩
  · exact h2
  exfalso
  rcases h2 with h2 | h2 | h2
  · exact hna h2
  · unfold MultiPart.parse at h
    rw [if_neg h0, a1] at h
    simp only at h
    cases hq : emptyQueryDict C S with
    | error e => rw [hq] at h; cases h
    | ok u => exact h2 hq
  · unfold MultiPart.parse at h
    rw [if_neg h0, a1] at h
    simp only at h
    cases hq : emptyQueryDict C S with
    | error e => rw [hq] at h; cases h
    | ok u =>
      rw [hq] at h
      simp only at h
      obtain ⟨r, s3, st', b1, -, b3⟩ := partsLoop_spec (ChunkIter.lawful L) C S H fuel64
        (SepOK.dashes m.boundary) ((LazyStream.mk' (⟨input1, m.chunkSize⟩ : ChunkIter ρ)).size + 1)
        (LazyStream.mk' ⟨input1, m.chunkSize⟩) (PState.start H w1) ⟨a2.inv, hc, a2.hist⟩
        (strong_nil_mk _) rfl (by omega)
      rw [b1] at h2
      have b1' := b1
      unfold PState.start at b1'
      rw [b1'] at h
      match r with
      | .ok () => exact h2 rfl
      | .error e =>
        by_cases he : ∃ b, e = .stopUpload b
        · obtain ⟨b, rfl⟩ := he
          have hw : Within S (PState.start H w1) := by
            refine ⟨?_, ?_⟩
            · cases hd : S.dataMaxMemory with
              | none => rfl
              | some k => have := hmem k hd; simp [PState.start]; omega
            · unfold emptyQueryDict at hq
              by_contra hx
              rw [Bool.not_eq_false] at hx
              have hx' : S.maxFields.any (· < 0) = true := hx
              rw [hx'] at hq
              simp only [if_true] at hq
              split at hq
              · split at hq <;> simp at hq
              · simp at hq
          rcases b3.err (hH b) (hC b) rfl hw with h3 | ⟨h3, -⟩
          · simp [ParserExc] at h3
          · cases h3
        · split at h
          · rename_i h4; cases h4
          · rename_i h4; cases h4; exact he ⟨_, rfl⟩
          · cases h

end

/-! ### Cases -/

/-- The notation gives a text boundary, with the same characters. -/
example : unicodeBoundary latinCodecs (some b!"multipart/form-data; boundary*=ascii''B") = true ∧
    unicodeBoundary latinCodecs (some b!"multipart/form-data; boundary=B") = false ∧
    (MultiPart.create latinCodecs (builtinOps Source goodOs 1) (some b!"multipart/form-data; boundary*=ascii''B") (some b!"100")).toOption =
    (MultiPart.create latinCodecs (builtinOps Source goodOs 1) (some b!"multipart/form-data; boundary=B") (some b!"100")).toOption := by
  decide +kernel

/-- A form with the field `a` that is `é` in latin-1. -/
def accent : Bytes := b!"--B\r\nContent-Disposition: form-data; name=\"a\"\r\n\r\n" ++ [233] ++ b!"\r\n--B--\r\n"

/-- Parse `D` with chunk size 7 and the given kind of boundary. -/
def runKind (text : Bool) (D : Bytes) :=
  (⟨b!"B", 7, 100⟩ : MultiPart).run latinCodecs {} (builtinOps Source goodOs 1) 100 text
    (LazyStream.mk' ⟨[D.take 30, D.drop 30]⟩) { hs := [.memory {}] }

example : namesAndValues (runKind false accent) = .ok [(b!"a", [233])] := by rfl
example : namesAndValues (runKind true accent) = .error .unicodeDecodeError := by rfl
example : namesAndValues (runKind true twoFields) = .ok [(b!"a", b!"x"), (b!"b", b!"yz")] := by rfl

/-- The hypotheses of `C106_refuted` are met by `accent`. -/
example : (runKind true accent).1 = .error .unicodeDecodeError := by
  refine C106_refuted (L := Source.lawful) latinCodecs {} (builtinOps Source goodOs 1) 100 ⟨b!"B", 7, 100⟩ (by decide)
    (by decide) (builtin_leaves _ _ _) (fun i a s w => by
      simp only [builtinOps, BWorld.on]; cases w.hs[i]? <;> rfl) (fun b => builtin_avoids (by simp [goodOs]) (by simp) (by simp)
      (by simp)) (fun b => latin_avoids (by simp) (by simp)) (fun k hk => ?_) _ _ ?_ (c := 233) ?_ (by decide) rfl
  · simp at hk; omega
  · exact ⟨trivial, HistOK.nil _ _, rfl⟩
  · decide +kernel

end Verif
