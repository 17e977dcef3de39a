import Verif.Spec.Boundary
import Verif.Proofs.Boundary
import Verif.Props.Stream
/-!
# C12–C14: cutting a multipart body into parts
-/

namespace Verif
open Spec

/-- The body stream of the parser (`http/multipartparser.py:136`): a stream over a
`ChunkIter` of the given chunk size over the request's stream. -/
def bodyStream (chunks : List Bytes) (chunkSize : Nat) : LazyStream (ChunkIter Source) :=
  LazyStream.mk' ⟨LazyStream.mk' ⟨chunks⟩, chunkSize⟩

/-- A user who reads every part completely (`for part in InterBoundaryIter(...)`,
`part.read()`). -/
def readParts {σ : Type} [Producer σ] (sep : Bytes) :
    Nat → LazyStream σ → Except Exc (List Bytes)
  | 0, _ => .error .diverge
  | fuel + 1, s =>
    match nextPart s sep with
    | (.error e, _) => .error e
    | (.ok none, _) => .ok []
    | (.ok (some sub), _) =>
      match sub.read none with
      | (.error e, _) => .error e
      | (.ok data, sub) =>
        match readParts sep fuel sub.producer.stream with
        | .error e => .error e
        | .ok ps => .ok (data :: ps)

section
variable {σ : Type} [Producer σ] (L : Lawful σ)

/-- Reading a whole part returns exactly its data and leaves the body right after the
separator. -/
theorem readPart_spec (ne : NonEmptyChunks σ) {sep : Bytes} (hs : SepOK sep) (s : LazyStream σ)
    (hI : L.Inv s.producer) (hH : Strong s.history s.leftover.length) (hl : s.length = none)
    (hne : L.sc s ≠ []) :
    ∃ b sub', nextPart s sep = (.ok (some (LazyStream.mk' b)), b.stream) ∧
      (LazyStream.mk' b).read none = (.ok (cut sep (L.sc s)), sub') ∧
      L.Inv sub'.producer.stream.producer ∧
      Strong sub'.producer.stream.history sub'.producer.stream.leftover.length ∧
      sub'.producer.stream.size < s.size ∧ sub'.producer.stream.length = none ∧
      L.sc sub'.producer.stream = after sep (L.sc s) := by
  rcases nextPart_spec L ne hs s hI hH hl with ⟨s', _, h, _⟩ | ⟨b, e, h1, h2, h3, h4⟩
  · exact absurd h hne
  · obtain ⟨c, b', a1, a2, a3, a4, a5⟩ :=
      BoundaryIter.firstStep L ne hs (L.sc s) s.size hne b h2 h3 h4
    have e1 : (LazyStream.mk' b).next = (.ok (some c),
        { producer := b', position := c.length : LazyStream (BoundaryIter σ) }) := by
      simp [LazyStream.next, LazyStream.mk', a1]
    have hsz : (LazyStream.mk' b).size = Producer.size b := by simp [LazyStream.size, LazyStream.mk']
    obtain ⟨s', f1, f2, f3, f4, f5⟩ := LazyStream.joinAll_spec
      (BoundaryIter.lawful L ne hs (L.sc s) s.size false) (LazyStream.mk' b).size c
      { producer := b', position := c.length } a2 (by rw [hsz]; simpa [LazyStream.size] using a4)
    refine ⟨b, s', e, ?_, ?_⟩
    · have e2 : (LazyStream.mk' b).read none =
          LazyStream.joinAll ((LazyStream.mk' b).size + 1) [] (LazyStream.mk' b) := by
        simp [LazyStream.read, LazyStream.mk']
      rw [e2]
      unfold LazyStream.joinAll
      rw [e1]
      simp only [List.nil_append]
      rw [f1, a3]
      simp [Lawful.sc]
    · obtain ⟨g1, g2, g3, _, _, g5, g6⟩ := lawful_progress L ne hs _ _ hne _ f2
      exact ⟨g1, g2, g3, g5, g6 f4⟩

theorem readParts_spec (ne : NonEmptyChunks σ) {sep : Bytes} (hs : SepOK sep) :
    ∀ (fuel : Nat) (s : LazyStream σ), L.Inv s.producer →
      Strong s.history s.leftover.length → s.length = none → s.size < fuel →
      ∃ ps, readParts sep fuel s = .ok ps ∧ Parts sep (L.sc s) ps := by
  intro fuel
  induction fuel with
  | zero => intro s _ _ _ h; omega
  | succ fuel ih =>
    intro s hI hH hl hf
    by_cases hne : L.sc s = []
    · rcases nextPart_spec L ne hs s hI hH hl with ⟨s', e, _⟩ | ⟨b, e, h1, _⟩
      · exact ⟨[], by simp [readParts, e], by rw [hne]; exact Parts.nil⟩
      · exact absurd hne h1
    · obtain ⟨b, sub', e1, e2, a1, a2, a3, a5, a4⟩ := readPart_spec L ne hs s hI hH hl hne
      obtain ⟨ps, b1, b2⟩ := ih sub'.producer.stream a1 a2 a5 (by omega)
      refine ⟨cut sep (L.sc s) :: ps, ?_, Parts.cons hne (cut_after_Cut sep (L.sc s)) (a4 ▸ b2)⟩
      simp [readParts, e1, e2, b1]

end

/-- **C12.**  For every body, boundary, chunk size and chunking of the input, reading the
parts one after another yields exactly the parts obtained by cutting the body bytes at the
separators: the data of a part is what precedes the first separator, minus one line end,
the next part starts right behind the separator, and nothing depends on the chunking. -/
theorem C12_parts_exact (chunks : List Bytes) (chunkSize : Nat) (hc : 1 ≤ chunkSize)
    (boundary : Bytes) :
    ∃ ps, readParts (b!"--" ++ boundary) ((bodyStream chunks chunkSize).size + 1)
        (bodyStream chunks chunkSize) = .ok ps ∧
      Parts (b!"--" ++ boundary) chunks.flatten ps := by
  obtain ⟨ps, h1, h2⟩ := readParts_spec (ChunkIter.lawful Source.lawful) ChunkIter.nonEmpty
    (SepOK.dashes boundary) _ (bodyStream chunks chunkSize) ⟨trivial, hc, HistOK.nil _ _⟩
    (Strong.nil _) rfl (Nat.lt_succ_self _)
  exact ⟨ps, h1, h2⟩

/-- The cut of a body is unique, so `C12_parts_exact` determines the parts. -/
theorem C12_parts_unique (sep body : Bytes) (ps qs : List Bytes)
    (h : Parts sep body ps) (h' : Parts sep body qs) : ps = qs := by
  induction h generalizing qs with
  | nil => cases h' with
    | nil => rfl
    | cons h _ _ => exact absurd rfl h
  | cons hne hc _ ih => cases h' with
    | nil => exact absurd rfl hne
    | cons _ hc' h2 =>
      obtain ⟨e1, e2⟩ := Cut_unique hc
      obtain ⟨e3, e4⟩ := Cut_unique hc'
      rw [e4, ← e2] at h2
      rw [ih _ h2, e1, e3]

/-- **C12**, for one part in the middle of a body: whatever the stream state reached so far
(any guard history allowed between parts), a part that is read completely has exactly the
bytes before the next separator and leaves the body stream exactly behind it. -/
theorem C12_part_exact {σ : Type} [Producer σ] (L : Lawful σ) (ne : NonEmptyChunks σ)
    (boundary : Bytes) (s : LazyStream σ) (hI : L.Inv s.producer)
    (hH : Strong s.history s.leftover.length) (hl : s.length = none) (hne : L.sc s ≠ []) :
    ∃ b sub' part, nextPart s (b!"--" ++ boundary) = (.ok (some (LazyStream.mk' b)), b.stream) ∧
      (LazyStream.mk' b).read none = (.ok part, sub') ∧
      Cut (b!"--" ++ boundary) (L.sc s) part (L.sc sub'.producer.stream) := by
  obtain ⟨b, sub', e1, e2, _, _, _, _, a4⟩ :=
    readPart_spec L ne (SepOK.dashes boundary) s hI hH hl hne
  refine ⟨b, sub', _, e1, e2, ?_⟩
  rw [a4]; exact cut_after_Cut _ _

/-- A body with a preamble, a part ending in a bare LF, an empty part and an epilogue,
arriving in pieces that split the separators. -/
example : readParts b!"--B" 100
    (bodyStream [b!"pre\r", b!"\n-", b!"-B\r\nab\nc\n--B\r\n--B-", b!"-end"] 5) =
    .ok [b!"pre", b!"\r\nab\nc", [], b!"--end"] := by decide +kernel

/-! ### C13, C14 -/

/-- What a user does with one part: read a header chunk of `hdr` bytes, push back some
strings (the parser pushes back at most two, `http/multipartparser.py:510,517,541`), then
read on in any way. -/
structure PartUse where
  hdr : Nat
  push : List Bytes
  reads : List StreamOp

/-- `PartUse` restrictions: at least one byte is asked for, at most 38 push-backs, and then
reads only. -/
def PartUse.ok (u : PartUse) : Prop :=
  1 ≤ u.hdr ∧ u.push.length ≤ 38 ∧ ∀ op ∈ u.reads, op.isRead = true

/-- The calls of a `PartUse`. -/
def PartUse.ops (u : PartUse) : List StreamOp := .read u.hdr :: (u.push.map .unget ++ u.reads)

/-- Go through the parts, using the i-th one as the i-th `PartUse` says; stop after the last
use or when the body is exhausted.  Returns the outcome of every call and the body stream. -/
def useParts {σ : Type} [Producer σ] (sep : Bytes) :
    List PartUse → LazyStream σ → Res (LazyStream σ) (List (List (Option Bytes)))
  | [], s => (.ok [], s)
  | u :: us, s =>
    match nextPart s sep with
    | (.error e, s) => (.error e, s)
    | (.ok none, s) => (.ok [], s)
    | (.ok (some sub), _) =>
      match sub.calls u.ops with
      | (.error e, sub) => (.error e, sub.producer.stream)
      | (.ok outs, sub) =>
        match useParts sep us sub.producer.stream with
        | (.error e, s) => (.error e, s)
        | (.ok ps, s) => (.ok (outs :: ps), s)

section
variable {σ : Type} [Producer σ] (L : Lawful σ)

theorem calls_append (s : LazyStream σ) (o1 o2 : List StreamOp) :
    s.calls (o1 ++ o2) = match s.calls o1 with
      | (.error e, s) => (.error e, s)
      | (.ok a, s) => match s.calls o2 with
        | (.error e, s) => (.error e, s)
        | (.ok b, s) => (.ok (a ++ b), s) := by
  induction o1 generalizing s with
  | nil =>
    simp only [List.nil_append, LazyStream.calls]
    rcases s.calls o2 with ⟨(e | b), s'⟩ <;> rfl
  | cons op o1 ih =>
    simp only [List.cons_append, LazyStream.calls]
    rcases s.call op with ⟨(e | a), s1⟩
    · rfl
    · simp only
      rw [ih s1]
      rcases s1.calls o1 with ⟨(e | a), s2⟩
      · rfl
      · simp only
        rcases s2.calls o2 with ⟨(e | a), s3⟩ <;> rfl

/-- Push-backs within the budget. -/
theorem pushes_ok (ps : List Bytes) : ∀ (s : LazyStream σ), L.Inv s.producer →
    s.history.length + ps.length ≤ 40 →
    ∃ outs s', s.calls (ps.map .unget) = (.ok outs, s') ∧ L.Inv s'.producer ∧
      s'.history.length ≤ s.history.length + ps.length ∧ s'.length = s.length ∧
      s'.producer = s.producer := by
  induction ps with
  | nil => intro s h _; exact ⟨[], s, rfl, h, by simp, rfl, rfl⟩
  | cons p ps ih =>
    intro s hI hl
    simp only [List.length_cons] at hl
    obtain ⟨s1, u1, u2, u3, u4, u5, u6⟩ := LazyStream.unget_ok s p (by
      intro _
      refine (List.length_filter_le _ _).trans ?_
      simp; omega)
    have h1 : s1.history.length ≤ s.history.length + 1 := by
      rw [u6]; split
      · omega
      · simp
    obtain ⟨outs, s', a1, a2, a3, a4, a5⟩ := ih s1 (by rw [u2]; exact hI) (by omega)
    refine ⟨none :: outs, s', ?_, a2, by simp; omega, by rw [a4, u5], by rw [a5, u2]⟩
    simp [LazyStream.calls, LazyStream.call, u1, a1]

/-- Reads with a good history succeed. -/
theorem reads_ok (ops : List StreamOp) (h : ∀ op ∈ ops, op.isRead = true) :
    ∀ (s : LazyStream σ), L.Inv s.producer → s.length = none →
      HistOK 39 s.history s.leftover.length →
      ∃ outs s', s.calls ops = (.ok outs, s') ∧ L.Inv s'.producer := by
  induction ops with
  | nil => intro s hI _ _; exact ⟨[], s, rfl, hI⟩
  | cons op ops ih =>
    intro s hI hl hH
    have step : ∃ out s1, s.call op = (.ok out, s1) ∧ L.Inv s1.producer ∧ s1.length = none ∧
        HistOK 39 s1.history s1.leftover.length := by
      cases op with
      | unget b => have := h (.unget b) (by simp); simp [StreamOp.isRead] at this
      | read n =>
        obtain ⟨s1, a1, a2, a3, a4, a5, a6, a7, a8⟩ :=
          LazyStream.read_ok L 39 (le_refl _) n s hI hH
        exact ⟨some _, s1, by simp only [LazyStream.call, a1]; rfl, a2, by rw [a5, hl], a8⟩
      | readAll =>
        obtain ⟨s1, a1, a2, a3, a4, a5, a6, a7, a8, a9⟩ :=
          LazyStream.readAll_spec L s hI hl
        refine ⟨some _, s1, by simp only [LazyStream.call, a1]; rfl, a2, by rw [a6, hl], ?_⟩
        rcases a9 with h | h <;> rw [h, a7]
        · exact hH.mono (by simp)
        · exact HistOK.nil _ _
      | next =>
        rcases LazyStream.next_spec L s hI with
          ⟨s1, e, a1, a2, a3, a4, a5, a6, a7, a8, a9, a10⟩ |
          ⟨c, s1, e, a1, a2, a3, a4, a5, a6, a7, a8⟩
        · exact ⟨none, s1, by simp only [LazyStream.call, e], a1, by rw [a9, hl],
            by rw [a8, a6]; exact hH.mono (by simp)⟩
        · refine ⟨some c, s1, by simp only [LazyStream.call, e], a1, by rw [a6, hl], ?_⟩
          rcases a5 with ⟨_, b2, b3, _⟩ | ⟨_, b2, _⟩
          · rw [b3, a3]; exact hH.mono (by simp)
          · rw [b2]; exact HistOK.nil _ _
    obtain ⟨out, s1, e, hI1, hl1, hH1⟩ := step
    obtain ⟨outs, s', e', hI'⟩ := ih (fun o ho => h o (by simp [ho])) s1 hI1 hl1 hH1
    exact ⟨out :: outs, s', by simp [LazyStream.calls, e, e'], hI'⟩

/-- One part used in any allowed way. -/
theorem usePart_spec (ne : NonEmptyChunks σ) {sep : Bytes} (hs : SepOK sep) (u : PartUse)
    (hu : u.ok) (D : Bytes) (N : Nat) (hD : D ≠ []) (b : BoundaryIter σ)
    (hb : (BoundaryIter.lawful L ne hs D N true).Inv b)
    (hd : b.done = false) (hDb : L.sc b.stream = D) :
    ∃ outs sub', (LazyStream.mk' b).calls u.ops = (.ok outs, sub') ∧
      (BoundaryIter.lawful L ne hs D N false).Inv sub'.producer := by
  obtain ⟨s1, a1, a2, a3, a4, a5, a6⟩ := firstRead_spec L ne hs D N hD b hb hd hDb u.hdr hu.1
  obtain ⟨o2, s2, b1, b2, b3, b4, _⟩ := pushes_ok _ u.push s1 a2 (by have := hu.2.1; omega)
  obtain ⟨o3, s3, c1, c2⟩ := reads_ok _ u.reads hu.2.2 s2 b2 (by rw [b4, a5])
    (HistOK.of_length (by have := hu.2.1; omega))
  refine ⟨some ((cut sep D).take u.hdr) :: (o2 ++ o3), s3, ?_, c2⟩
  unfold PartUse.ops
  simp only [LazyStream.calls, LazyStream.call, a1]
  rw [calls_append, b1]
  simp only
  rw [c1]

theorem useParts_spec (ne : NonEmptyChunks σ) {sep : Bytes} (hs : SepOK sep)
    (us : List PartUse) (hus : ∀ u ∈ us, u.ok) :
    ∀ (s : LazyStream σ), L.Inv s.producer → Strong s.history s.leftover.length →
      s.length = none →
      ∃ ps s', useParts sep us s = (.ok ps, s') ∧ L.Inv s'.producer ∧
        s'.length = none ∧ L.sc s' <:+ L.sc s ∧ (L.sc s').length + ps.length ≤ (L.sc s).length := by
  induction us with
  | nil => intro s hI _ hl; exact ⟨[], s, rfl, hI, hl, List.suffix_refl _, by simp⟩
  | cons u us ih =>
    intro s hI hH hl
    unfold useParts
    rcases nextPart_spec L ne hs s hI hH hl with ⟨s', e, h1, h2, h3, _, h4⟩ | ⟨b, e, h1, h2, h3, h4⟩
    · rw [e]; exact ⟨[], s', rfl, h3, h4, by simp [h1, h2], by simp [h1, h2]⟩
    · rw [e]
      obtain ⟨outs, sub', f1, f2⟩ := usePart_spec L ne hs u (hus u (by simp)) _ _ h1 b h2 h3 h4
      obtain ⟨g1, g2, g3, g4, g5, g6, _⟩ := lawful_progress L ne hs _ _ h1 _ f2
      obtain ⟨ps, s', k1, k2, kl, k3, k4⟩ :=
        ih (fun v hv => hus v (by simp [hv])) sub'.producer.stream g1 g2 g6
      refine ⟨outs :: ps, s', ?_, k2, kl, k3.trans g5, by simp; omega⟩
      simp only [f1, k1]

end

/-- **C13.**  Whatever the body, boundary, chunk size and chunking, going through any number
of parts — reading a header chunk of each, pushing strings back, and reading any amount of
the rest in any way, or abandoning it — never raises `SuspiciousMultipartForm` (or anything
else). -/
theorem C13_guard_never_trips (chunks : List Bytes) (chunkSize : Nat) (hc : 1 ≤ chunkSize)
    (boundary : Bytes) (us : List PartUse) (hus : ∀ u ∈ us, u.ok) :
    ∃ outs s', useParts (b!"--" ++ boundary) us (bodyStream chunks chunkSize) = (.ok outs, s') := by
  obtain ⟨ps, s', h, _⟩ := useParts_spec (ChunkIter.lawful Source.lawful) ChunkIter.nonEmpty
    (SepOK.dashes boundary) us hus (bodyStream chunks chunkSize) ⟨trivial, hc, HistOK.nil _ _⟩
    (Strong.nil _) rfl
  exact ⟨ps, s', h⟩

/-- **C14.**  The number of parts is at most the body length, however little of each part is
read: every part consumes at least one byte, and what is left is always a suffix of the body. -/
theorem C14_parts_bounded (chunks : List Bytes) (chunkSize : Nat) (hc : 1 ≤ chunkSize)
    (boundary : Bytes) (us : List PartUse) (hus : ∀ u ∈ us, u.ok) :
    ∃ outs s' rest, useParts (b!"--" ++ boundary) us (bodyStream chunks chunkSize) = (.ok outs, s') ∧
      (s'.read none).1 = .ok rest ∧ rest <:+ chunks.flatten ∧
      outs.length + rest.length ≤ chunks.flatten.length := by
  obtain ⟨ps, s', h, h2, hl, h3, h4⟩ := useParts_spec (ChunkIter.lawful Source.lawful)
    ChunkIter.nonEmpty (SepOK.dashes boundary) us hus (bodyStream chunks chunkSize)
    ⟨trivial, hc, HistOK.nil _ _⟩ (Strong.nil _) rfl
  obtain ⟨s'', b1, _⟩ := LazyStream.readAll_spec _ s' h2 hl
  refine ⟨ps, s', _, h, by rw [b1], h3, ?_⟩
  have : ((ChunkIter.lawful Source.lawful).sc (bodyStream chunks chunkSize)) = chunks.flatten := rfl
  rw [this] at h4; omega

/-- Sixty parts of which only the first three bytes are looked at, then pushed back. -/
example : (useParts b!"--B" (List.replicate 60 ⟨3, [b!"xyz"], []⟩)
    (bodyStream [(List.replicate 60 b!"hello world\r\n--B").flatten] 7)).1.toOption.map List.length =
    some 60 := by decide +kernel

end Verif
