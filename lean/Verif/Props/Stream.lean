import Verif.Spec.Stream
import Verif.Proofs.Stream
/-!
# C07–C11: LazyStream and ChunkIter
-/

namespace Verif
open Spec

variable {σ : Type} [Producer σ]

/-- One call on a stream over a lawful producer agrees with the abstract stream, or
raises `SuspiciousMultipartForm`. -/
theorem LazyStream.call_spec (L : Lawful σ) (s : LazyStream σ) (op : StreamOp)
    (hI : L.Inv s.producer) (hl : s.length = none) :
    (∃ out s', s.call op = (.ok out, s') ∧ L.Inv s'.producer ∧ s'.length = none ∧
      Step (L.sc s) op out (L.sc s') ∧ s'.position = s.position + netBytes [op] [out]) ∨
    (∃ s', s.call op = (.error .suspiciousMultipartForm, s')) := by
  cases op with
  | read n =>
    rcases LazyStream.read_spec L 0 (by omega) n s hI with
      ⟨s', a1, a2, a3, a4, a5, a6, a7, a8⟩ | ⟨s', a1, _⟩
    · left
      refine ⟨some ((L.sc s).take n), s', by simp [call, a1], a2, by rw [a5, hl], ?_, ?_⟩
      · rw [a3]; exact Step.read _ _
      · rw [a4]; simp [netBytes]
    · right; exact ⟨s', by simp [call, a1]⟩
  | readAll =>
    left
    obtain ⟨s', a1, a2, a3, a4, a5, a6, _⟩ := LazyStream.readAll_spec L s hI hl
    refine ⟨some (L.sc s), s', by simp [call, a1], a2, by rw [a6, hl], ?_, ?_⟩
    · rw [a3]; exact Step.readAll _
    · rw [a5]; simp [netBytes]
  | next =>
    left
    rcases LazyStream.next_spec L s hI with
      ⟨s1, e, a1, a2, a3, a4, a5, a6, a7, a8, a9, a10⟩ |
      ⟨c, s1, e, a1, a2, a3, a4, a5, a6, a7, a8⟩
    · refine ⟨none, s1, by simp [call, e], a1, by rw [a9, hl], ?_, ?_⟩
      · rw [a3, a4]; exact Step.nextStop
      · rw [a7]; simp [netBytes]
    · refine ⟨some c, s1, by simp [call, e], a1, by rw [a6, hl], ?_, ?_⟩
      · rw [a2]; exact Step.nextSome _ _
      · rw [a4]; simp [netBytes]
  | unget b =>
    rcases LazyStream.unget_spec s b with ⟨s2, e2, b1, b2, b3, b4, b5⟩ | ⟨s2, e2, b1, b2⟩
    · left
      refine ⟨none, s2, by simp [call, e2], by rw [b1]; exact hI, by rw [b4, hl], ?_, ?_⟩
      · have : L.sc s2 = b ++ L.sc s := by simp [Lawful.sc, b1, b2]
        rw [this]; exact Step.unget _ _
      · rw [b3]; simp [netBytes]; omega
    · right; exact ⟨s2, by simp [call, e2]⟩

theorem LazyStream.calls_spec (L : Lawful σ) (ops : List StreamOp) :
    ∀ (s : LazyStream σ), L.Inv s.producer → s.length = none →
    (∃ outs s', s.calls ops = (.ok outs, s') ∧ L.Inv s'.producer ∧ s'.length = none ∧
      Run (L.sc s) ops outs (L.sc s') ∧ s'.position = s.position + netBytes ops outs) ∨
    (∃ s', s.calls ops = (.error .suspiciousMultipartForm, s')) := by
  induction ops with
  | nil =>
    intro s hI hl
    left; exact ⟨[], s, rfl, hI, hl, Run.nil _, by simp [netBytes]⟩
  | cons op ops ih =>
    intro s hI hl
    rcases LazyStream.call_spec L s op hI hl with ⟨out, s1, a1, a2, a3, a4, a5⟩ | ⟨s1, a1⟩
    · rcases ih s1 a2 a3 with ⟨outs, s', b1, b2, b3, b4, b5⟩ | ⟨s', b1⟩
      · left
        refine ⟨out :: outs, s', by simp [calls, a1, b1], b2, b3, Run.cons a4 b4, ?_⟩
        rw [b5, a5]
        cases op <;> cases out <;> simp [netBytes] <;> omega
      · right; exact ⟨s', by simp [calls, a1, b1]⟩
    · right; exact ⟨s1, by simp [calls, a1]⟩

/-- **C07.**  On a fresh stream over any chunking of any byte string, every sequence of
calls either behaves exactly like the abstract stream of the concatenated bytes
(`read(n)` returns exactly the first `n` bytes of what is left, `unget` puts bytes in
front, nothing is lost, duplicated or reordered) and a final `read()` returns exactly
what the abstract stream has left — or is stopped by the anti-loop guard of `unget`. -/
theorem C07_read_exact (chunks : List Bytes) (ops : List StreamOp) :
    (∃ outs s' rest, (LazyStream.mk' (⟨chunks⟩ : Source)).calls ops = (.ok outs, s') ∧
      Run chunks.flatten ops outs rest ∧ (s'.read none).1 = .ok rest) ∨
    (∃ s', (LazyStream.mk' (⟨chunks⟩ : Source)).calls ops = (.error .suspiciousMultipartForm, s')) := by
  rcases LazyStream.calls_spec Source.lawful ops (LazyStream.mk' ⟨chunks⟩) trivial rfl with
    ⟨outs, s', a1, a2, a3, a4, _⟩ | h
  · left
    obtain ⟨s'', b1, _⟩ := LazyStream.readAll_spec Source.lawful s' a2 a3
    exact ⟨outs, s', _, a1, a4, by rw [b1]⟩
  · right; exact h

/-- **C07**, for a stream in any reachable or unreachable state over any lawful
producer: a `read(n)` that returns gives exactly the first `n` bytes and leaves the rest. -/
theorem C07_read_any_state (L : Lawful σ) (s s' : LazyStream σ) (n : Nat) (out : Bytes)
    (hI : L.Inv s.producer) (h : s.read (some n) = (.ok out, s')) :
    out = (L.sc s).take n ∧ L.sc s' = (L.sc s).drop n := by
  rcases LazyStream.read_spec L 0 (by omega) n s hI with ⟨s1, a1, _, a3, _⟩ | ⟨s1, a1, _⟩
  · rw [a1] at h; simp at h; obtain ⟨rfl, rfl⟩ := h; exact ⟨rfl, a3⟩
  · rw [a1] at h; simp at h

/-- A history that exercises every call: outputs as the abstract stream says. -/
example : ((LazyStream.mk' (⟨[b!"ab", b!"", b!"cdef"]⟩ : Source)).calls
      [.read 3, .unget b!"XY", .next, .read 2, .readAll]).1.toOption =
    some [some b!"abc", none, some b!"XYdef", some [], some []] := by decide

/-- **C07** (negative sizes): `read(-1)` fails the assertion and consumes nothing. -/
theorem C07_read_negative (s : LazyStream σ) (n : Int) (hn : n < 0) :
    s.read (some n) = (.error .assertionError, s) := by
  simp [LazyStream.read, hn]

/-- **C08.**  `tell()` is the number of bytes handed out minus the number pushed back. -/
theorem C08_tell (chunks : List Bytes) (ops : List StreamOp) (outs : List (Option Bytes))
    (s' : LazyStream Source)
    (h : (LazyStream.mk' (⟨chunks⟩ : Source)).calls ops = (.ok outs, s')) :
    s'.tell = netBytes ops outs := by
  rcases LazyStream.calls_spec Source.lawful ops (LazyStream.mk' ⟨chunks⟩) trivial rfl with
    ⟨outs', s1, a1, _, _, _, a5⟩ | ⟨s1, a1⟩
  · rw [h] at a1; simp at a1; obtain ⟨rfl, rfl⟩ := a1
    simpa [LazyStream.tell, LazyStream.mk'] using a5
  · rw [h] at a1; simp at a1

example : ((LazyStream.mk' (⟨[b!"ab", b!"cdef"]⟩ : Source)).calls
      [.read 3, .unget b!"XY", .next]).2.tell = 3 + -2 + 5 := by decide

/-- **C09.**  Pushing back the bytes just read restores the remaining content and
`tell()`, unless the guard stops the push. -/
theorem C09_unget_undoes_read (L : Lawful σ) (s s1 : LazyStream σ) (n : Nat) (out : Bytes)
    (hI : L.Inv s.producer) (h : s.read (some n) = (.ok out, s1)) :
    (∃ s2, s1.unget out = (.ok (), s2) ∧ L.sc s2 = L.sc s ∧ s2.tell = s.tell) ∨
    (∃ s2, s1.unget out = (.error .suspiciousMultipartForm, s2)) := by
  rcases LazyStream.read_spec L 0 (by omega) n s hI with ⟨s1', a1, a2, a3, a4, _⟩ | ⟨s1, a1, _⟩
  · rw [a1] at h; simp at h; obtain ⟨rfl, rfl⟩ := h
    rcases LazyStream.unget_spec s1' ((L.sc s).take n) with ⟨s2, e2, b1, b2, b3, b4, b5⟩ | ⟨s2, e2, _⟩
    · left
      refine ⟨s2, e2, ?_, ?_⟩
      · have : L.sc s2 = (L.sc s).take n ++ L.sc s1' := by
          simp [Lawful.sc, b1, b2]
        rw [this, a3, List.take_append_drop]
      · simp only [LazyStream.tell, b3, a4, List.length_take]; omega
    · right; exact ⟨s2, e2⟩
  · rw [a1] at h; simp at h

/-- **C09**, without the exception: on a stream on which fewer than 39 push-backs happened
since the last fetch, reading and pushing back always succeeds. -/
theorem C09_unget_undoes_read_ok (L : Lawful σ) (s : LazyStream σ) (n : Nat)
    (hI : L.Inv s.producer) (hh : s.history.length < 39) :
    ∃ out s1 s2, s.read (some n) = (.ok out, s1) ∧ s1.unget out = (.ok (), s2) ∧
      L.sc s2 = L.sc s ∧ s2.tell = s.tell := by
  obtain ⟨s1, a1, a2, a3, a4, a5, a6, a7, a8⟩ :=
    LazyStream.read_ok L 38 (by omega) n s hI (HistOK.of_length (by omega))
  rcases C09_unget_undoes_read L s s1 n _ hI a1 with ⟨s2, b1, b2, b3⟩ | ⟨s2, b1⟩
  · exact ⟨_, s1, s2, a1, b1, b2, b3⟩
  · exfalso
    rcases LazyStream.unget_spec s1 ((L.sc s).take n) with ⟨s3, e, _⟩ | ⟨s3, e, hne, hc⟩
    · rw [e] at b1; simp at b1
    · generalize hm : ((L.sc s).take n).length = m at hc
      rw [List.filter_cons] at hc
      have h1 : ((s1.history.take 49).filter (· = m)).length ≤ (s1.history.filter (· = m)).length :=
        ((List.take_sublist 49 s1.history).filter _).length_le
      have h2 : (s1.history.filter (· = m)).length ≤ 1 + 38 := (a8.count_any m).trans (by omega)
      simp at hc h1
      omega

example : let s := LazyStream.mk' (⟨[b!"hello ", b!"world"]⟩ : Source)
    ((s.read (some 8)).2.unget b!"hello wo").2.leftover = b!"hello world" := by decide

/-- A call that only reads. -/
def Spec.StreamOp.isRead : StreamOp → Bool
  | .unget _ => false
  | _ => true

/-- **C10** (no false alarm).  No sequence of reads of any sizes on a fresh stream over any
chunking ever raises. -/
theorem C10_reading_never_raises (chunks : List Bytes) (ops : List StreamOp)
    (h : ∀ op ∈ ops, op.isRead = true) :
    ∃ outs s', (LazyStream.mk' (⟨chunks⟩ : Source)).calls ops = (.ok outs, s') := by
  suffices H : ∀ (s : LazyStream Source), s.length = none →
      HistOK 39 s.history s.leftover.length → ∃ outs s', s.calls ops = (.ok outs, s') from
    H _ rfl (HistOK.nil _ _)
  induction ops with
  | nil => intro s _ _; exact ⟨[], s, rfl⟩
  | cons op ops ih =>
    intro s hl hH
    have step : ∃ out s1, s.call op = (.ok out, s1) ∧ s1.length = none ∧
        HistOK 39 s1.history s1.leftover.length := by
      cases op with
      | unget b => have := h (.unget b) (by simp); simp [StreamOp.isRead] at this
      | read n =>
        obtain ⟨s1, a1, a2, a3, a4, a5, a6, a7, a8⟩ :=
          LazyStream.read_ok Source.lawful 39 (le_refl _) n s trivial hH
        exact ⟨some _, s1, by simp only [LazyStream.call, a1]; rfl, by rw [a5, hl], a8⟩
      | readAll =>
        obtain ⟨s1, a1, a2, a3, a4, a5, a6, a7, a8, a9⟩ :=
          LazyStream.readAll_spec Source.lawful s trivial hl
        refine ⟨some _, s1, by simp only [LazyStream.call, a1]; rfl, by rw [a6, hl], ?_⟩
        rcases a9 with h | h <;> rw [h, a7]
        · exact hH.mono (by simp)
        · exact HistOK.nil _ _
      | next =>
        rcases LazyStream.next_spec Source.lawful s trivial with
          ⟨s1, e, a1, a2, a3, a4, a5, a6, a7, a8, a9, a10⟩ |
          ⟨c, s1, e, a1, a2, a3, a4, a5, a6, a7, a8⟩
        · exact ⟨none, s1, by simp only [LazyStream.call, e], by rw [a9, hl],
            by rw [a8, a6]; exact hH.mono (by simp)⟩
        · refine ⟨some c, s1, by simp only [LazyStream.call, e], by rw [a6, hl], ?_⟩
          rcases a5 with ⟨_, b2, b3, _⟩ | ⟨_, b2, _⟩
          · rw [b3, a3]; exact hH.mono (by simp)
          · rw [b2]; exact HistOK.nil _ _
    obtain ⟨out, s1, e, hl1, hH1⟩ := step
    obtain ⟨outs, s', e'⟩ := ih (fun o ho => h o (by simp [ho])) s1 hl1 hH1
    exact ⟨out :: outs, s', by simp [LazyStream.calls, e, e']⟩

/-- A stuck parser: it pushes back `n` bytes again and again; between pushes it may take
the pushed-back data (`next` served from the leftover) but fetches nothing new. -/
inductive Stuck (n : Nat) : Nat → LazyStream σ → LazyStream σ → Prop where
  | start (s) : Stuck n 0 s s
  | take {i s s1 s2} : Stuck n i s s1 → s1.leftover ≠ [] → s2 = s1.next.2 → Stuck n i s s2
  | push {i s s1 s2} (b : Bytes) : Stuck n i s s1 → b.length = n → s1.unget b = (.ok (), s2) →
      Stuck n (i + 1) s s2

/-- **C10** (a stuck parser is caught).  From any state whatsoever, 41 successful pushes of
the same non-zero size without fetching new data are impossible: the guard fires on the
41st push at the latest. -/
theorem C10_stuck_raises (n : Nat) (hn : 0 < n) (i : Nat) (s s' : LazyStream σ)
    (h : Stuck n i s s') : i ≤ 40 := by
  suffices H : i ≤ 40 ∧ ∃ t, s'.history = List.replicate i n ++ t from H.1
  induction h with
  | start s => exact ⟨by omega, s.history, by simp⟩
  | take h1 hl e ih =>
    subst e
    simpa [LazyStream.next, hl] using ih
  | @push i s s1 s2 b h1 hb e ih =>
    obtain ⟨hi, t, ht⟩ := ih
    have hbne : b ≠ [] := by intro hh; simp [hh] at hb; omega
    rcases LazyStream.unget_spec s1 b with ⟨s3, e3, b1, b2, b3, b4, b5⟩ | ⟨s3, e3, _⟩
    · rw [e] at e3; simp at e3; subst e3
      simp only [hbne, if_false, hb] at b5
      refine ⟨?_, t.take (49 - i), ?_⟩
      · by_contra hc
        have hi40 : i = 40 := by omega
        subst hi40
        simp only [LazyStream.unget, hbne, if_false, hb, ht] at e
        split at e
        · simp at e
        · rename_i hh
          apply hh
          simp
      · rw [b5, ht, List.take_append]
        simp [List.replicate_succ]
        omega
    · rw [e] at e3; simp at e3

/-- Forty identical pushes are still accepted (so the bound 40 is exact). -/
example : ∃ s', Stuck 1 40 (LazyStream.mk' (⟨[]⟩ : Source)) s' := by
  have : ∀ i s', Stuck 1 i (LazyStream.mk' (⟨[]⟩ : Source)) s' → s'.history.length = i → i < 40 →
      ∃ s'', Stuck 1 (i+1) (LazyStream.mk' (⟨[]⟩ : Source)) s'' ∧ s''.history.length = i+1 := by
    intro i s' hs hl hi
    rcases LazyStream.unget_spec s' b!"x" with ⟨s3, e3, b1, b2, b3, b4, b5⟩ | ⟨s3, e3, hne, hc⟩
    · refine ⟨s3, Stuck.push b!"x" hs rfl e3, ?_⟩
      rw [b5]; simp; omega
    · have := List.length_filter_le (fun x => decide (x = b!"x".length)) (b!"x".length :: s'.history.take 49)
      have h2 : (b!"x".length :: s'.history.take 49).length ≤ 40 := by simp; omega
      omega
  have all : ∀ i, i ≤ 40 → ∃ s', Stuck 1 i (LazyStream.mk' (⟨[]⟩ : Source)) s' ∧ s'.history.length = i := by
    intro i
    induction i with
    | zero => intro _; exact ⟨_, Stuck.start _, rfl⟩
    | succ i ih =>
      intro h
      obtain ⟨s', a, b⟩ := ih (by omega)
      exact this i s' a b (by omega)
  obtain ⟨s', a, _⟩ := all 40 (le_refl _)
  exact ⟨s', a⟩

/-- **C11.**  Iterating a `ChunkIter` of size `n ≥ 1` over a fresh stream yields non-empty
chunks of at most `n` bytes that concatenate to the whole content; all but the last have
exactly `n` bytes. -/
theorem C11_chunk_iter (chunks : List Bytes) (n : Nat) (hn : 1 ≤ n) :
    ∃ cs p', Drain (⟨LazyStream.mk' (⟨chunks⟩ : Source), n⟩ : ChunkIter Source) cs p' ∧
      cs.flatten = chunks.flatten ∧
      (∀ c ∈ cs, c ≠ [] ∧ c.length ≤ n) ∧ (∀ c ∈ cs.dropLast, c.length = n) := by
  let L := ChunkIter.lawful Source.lawful
  suffices H : ∀ (k : Nat) (p : ChunkIter Source), p.chunkSize = n → L.Inv p →
      (L.content p).length < k → ∃ cs p', Drain p cs p' ∧ cs.flatten = L.content p ∧
      (∀ c ∈ cs, c ≠ [] ∧ c.length ≤ n) ∧ (∀ c ∈ cs.dropLast, c.length = n) ∧
      (cs = [] ↔ L.content p = []) from by
    obtain ⟨cs, p', h1, h2, h3, h4, _⟩ := H _ ⟨LazyStream.mk' (⟨chunks⟩ : Source), n⟩ rfl
      ⟨trivial, hn, HistOK.nil _ _⟩ (Nat.lt_succ_self _)
    exact ⟨cs, p', h1, h2, h3, h4⟩
  intro k
  induction k with
  | zero => intro p _ _ h; omega
  | succ k ih =>
    intro p hp hI hk
    obtain ⟨s', a1, a2, a3, a4, a5, a6, a7, a8⟩ :=
      LazyStream.read_ok Source.lawful 39 (le_refl _) p.chunkSize p.flo hI.1 hI.2.2
    have hcp : L.content p = Source.lawful.sc p.flo := rfl
    by_cases hc : L.content p = []
    · refine ⟨[], { p with flo := s' }, Drain.stop ?_, by simp [hc], by simp, by simp, by simp [hc]⟩
      rw [hcp] at hc
      simp [Producer.next, ChunkIter.next, a1, hc]
    · have hlen := List.length_pos_iff.2 hc
      rw [hcp] at hc hlen
      have hne : (Source.lawful.sc p.flo).take p.chunkSize ≠ [] := by
        simp [hc]; omega
      have hc' : L.content { p with flo := s' } = (Source.lawful.sc p.flo).drop p.chunkSize := a3
      obtain ⟨cs, p', b1, b2, b3, b4, b5⟩ := ih { p with flo := s' } hp ⟨a2, hI.2.1, a8⟩
        (by rw [hc']; rw [hcp] at hk; simp; omega)
      refine ⟨(Source.lawful.sc p.flo).take p.chunkSize :: cs, p', Drain.step ?_ b1, ?_, ?_, ?_, ?_⟩
      · simp only [Producer.next, ChunkIter.next, a1]
        rw [if_pos hne]
      · simp [b2, hc', hcp]
      · intro c hcm
        rcases List.mem_cons.1 hcm with rfl | hcm
        · exact ⟨hne, by rw [List.length_take, hp]; omega⟩
        · exact b3 c hcm
      · intro c hcm
        cases cs with
        | nil => simp at hcm
        | cons d ds =>
          rw [List.dropLast_cons_cons] at hcm
          rcases List.mem_cons.1 hcm with rfl | hcm
          · have : L.content { p with flo := s' } ≠ [] := fun h => by simpa using b5.2 h
            rw [hc'] at this
            have := List.length_pos_iff.2 this
            simp at this
            rw [List.length_take, hp] at *; omega
          · exact b4 c hcm
      · simp [hcp, hc]

example : Drain (⟨LazyStream.mk' (⟨[b!"abc", b!"defg"]⟩ : Source), 3⟩ : ChunkIter Source)
    [b!"abc", b!"def", b!"g"] ⟨{ LazyStream.mk' (⟨[]⟩ : Source) with
      position := 7, history := [1] }, 3⟩ := by
  refine Drain.step (p' := ⟨{ LazyStream.mk' (⟨[b!"defg"]⟩ : Source) with position := 3 }, 3⟩) rfl ?_
  refine Drain.step (p' := ⟨{ LazyStream.mk' (⟨[]⟩ : Source) with
    position := 6, leftover := b!"g", history := [1] }, 3⟩) rfl ?_
  refine Drain.step (p' := ⟨{ LazyStream.mk' (⟨[]⟩ : Source) with
    position := 7, history := [1] }, 3⟩) rfl ?_
  exact Drain.stop rfl

end Verif
