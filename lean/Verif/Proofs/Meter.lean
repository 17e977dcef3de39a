import Verif.Proofs.Weigh
/-!
# Streams that give at most so many bytes, whatever else they do
-/

namespace Verif

/-- The bytes handed out by a call of `next()`. -/
def gave : Except Exc (Option Bytes) → Nat
  | .ok (some c) => c.length
  | _ => 0

/-- `holds p n`: the object gives at most `n` more bytes; it may raise exceptions, once or again and again, and it may
go on after that or after its end. -/
structure Meter (ρ : Type) [Producer ρ] where
  holds : ρ → Nat → Prop
  mono : ∀ {p n m}, n ≤ m → holds p n → holds p m
  next : ∀ {p n}, holds p n → ∃ k, gave (Producer.next p).1 + k ≤ n ∧ holds (Producer.next p).2 k

section
variable {τ : Type} [Producer τ] {M : Meter τ}

/-- A stream that gives at most `n` more bytes. -/
def Meter.Has (M : Meter τ) (s : LazyStream τ) (n : Nat) : Prop := ∃ k, M.holds s.producer k ∧ s.leftover.length + k ≤ n

namespace Meter.Has

theorem le {s : LazyStream τ} {n m : Nat} (h : M.Has s n) (hn : n ≤ m) : M.Has s m := by
  obtain ⟨k, h1, h2⟩ := h
  exact ⟨k, h1, by omega⟩

theorem producer {s : LazyStream τ} {n : Nat} (h : M.Has s n) : M.holds s.producer n := by
  obtain ⟨k, h1, h2⟩ := h
  exact M.mono (by omega) h1

theorem fresh {p : τ} {n : Nat} (h : M.holds p n) : M.Has (LazyStream.mk' p) n := ⟨n, h, by simp [LazyStream.mk']⟩

theorem next {s : LazyStream τ} {n : Nat} (h : M.Has s n) : ∃ k, gave s.next.1 + k ≤ n ∧ M.Has s.next.2 k := by
  obtain ⟨k, h1, h2⟩ := h
  unfold LazyStream.next
  split
  · exact ⟨k, h2, k, h1, by simp⟩
  · rename_i hl
    have hl : s.leftover = [] := by simpa using hl
    obtain ⟨j, h3, h4⟩ := M.next h1
    rcases hp : Producer.next s.producer with ⟨(e | (_ | c)), p⟩ <;> rw [hp] at h3 h4
    all_goals exact ⟨j, by simp only [gave] at h3 ⊢; omega, j, h4, by simp [hl]⟩

theorem unget {s : LazyStream τ} {n : Nat} (h : M.Has s n) (c : Bytes) : M.Has (s.unget c).2 (c.length + n) := by
  obtain ⟨k, h1, h2⟩ := h
  unfold LazyStream.unget
  split
  · exact ⟨k, h1, by simp only; omega⟩
  · simp only
    split
    · exact ⟨k, h1, by simp only; omega⟩
    · exact ⟨k, h1, by simp only [List.length_append]; omega⟩

end Meter.Has

/-- The bytes handed out by `read()`. -/
def gaveAll : Except Exc Bytes → Nat
  | .ok c => c.length
  | _ => 0

namespace Meter.Has

theorem readLoop : ∀ (fuel rem : Nat) (acc : Bytes) {s : LazyStream τ} {n : Nat}, M.Has s n →
    ∃ k, gaveAll (LazyStream.readLoop fuel rem acc s).1 + k ≤ acc.length + n ∧
      M.Has (LazyStream.readLoop fuel rem acc s).2 k := by
  intro fuel
  induction fuel with
  | zero =>
    intro rem acc s n h
    unfold LazyStream.readLoop
    split
    · exact ⟨n, by simp [gaveAll], h⟩
    · exact ⟨n, by simp [gaveAll], h⟩
  | succ fuel ih =>
    intro rem acc s n h
    unfold LazyStream.readLoop
    split
    · exact ⟨n, by simp [gaveAll], h⟩
    · obtain ⟨k, h1, h2⟩ := h.next
      generalize s.next = zz at *
      rcases zz with ⟨(e | (_ | c)), s1⟩
      · exact ⟨k, by simp only [gaveAll, gave] at h1 ⊢; omega, h2⟩
      · exact ⟨k, by simp only [gaveAll, gave] at h1 ⊢; omega, h2⟩
      · simp only [gave] at h1 h2 ⊢
        have h3 := h2.unget (c.drop rem)
        generalize s1.unget (c.drop rem) = zz at *
        rcases zz with ⟨(e | _), s2⟩
        · exact ⟨_, by simp only [gaveAll, List.length_drop]; omega, h3⟩
        · obtain ⟨j, h4, h5⟩ := ih (rem - (c.take rem).length) (acc ++ c.take rem) h3
          refine ⟨j, ?_, h5⟩
          simp only [List.length_append, List.length_take, List.length_drop] at h4 ⊢
          omega

theorem joinAll : ∀ (fuel : Nat) (acc : Bytes) {s : LazyStream τ} {n : Nat}, M.Has s n →
    ∃ k, gaveAll (LazyStream.joinAll fuel acc s).1 + k ≤ acc.length + n ∧ M.Has (LazyStream.joinAll fuel acc s).2 k := by
  intro fuel
  induction fuel with
  | zero => intro acc s n h; exact ⟨n, by simp [gaveAll, LazyStream.joinAll], h⟩
  | succ fuel ih =>
    intro acc s n h
    unfold LazyStream.joinAll
    obtain ⟨k, h1, h2⟩ := h.next
    generalize s.next = zz at *
    rcases zz with ⟨(e | (_ | c)), s1⟩
    · exact ⟨k, by simp only [gaveAll, gave] at h1 ⊢; omega, h2⟩
    · exact ⟨k, by simp only [gaveAll, gave] at h1 ⊢; omega, h2⟩
    · simp only [gave] at h1 h2 ⊢
      obtain ⟨j, h4, h5⟩ := ih (acc ++ c) h2
      exact ⟨j, by simp only [List.length_append] at h4; omega, h5⟩

theorem read {s : LazyStream τ} {n : Nat} (h : M.Has s n) (sz : Option Int) :
    ∃ k, gaveAll (s.read sz).1 + k ≤ n ∧ M.Has (s.read sz).2 k := by
  have key : ∀ o : Option Int, ∃ k, gaveAll (match o with
        | none => LazyStream.joinAll (s.size + 1) [] s
        | some n => if n < 0 then (.error .assertionError, s) else LazyStream.readLoop (s.size + 1) n.toNat [] s).1 + k ≤ n ∧
      M.Has (match o with
        | none => LazyStream.joinAll (s.size + 1) [] s
        | some n => if n < 0 then (.error .assertionError, s) else LazyStream.readLoop (s.size + 1) n.toNat [] s).2 k := by
    intro o
    cases o with
    | none => simpa using joinAll (s.size + 1) [] h
    | some m =>
      simp only
      split
      · exact ⟨n, by simp [gaveAll], h⟩
      · simpa using readLoop (s.size + 1) m.toNat [] h
  cases sz with
  | none => exact key s.length
  | some m => exact key (some m)

end Meter.Has

/-- A `ChunkIter` gives what its file gives. -/
def Meter.chunks (M : Meter τ) : Meter (ChunkIter τ) where
  holds c n := M.Has c.flo n
  mono hn h := h.le hn
  next {c n} h := by
    obtain ⟨k, h1, h2⟩ := h.read (some c.chunkSize)
    change ∃ k, gave (ChunkIter.next c).1 + k ≤ n ∧ M.Has (ChunkIter.next c).2.flo k
    unfold ChunkIter.next
    generalize c.flo.read (some c.chunkSize) = zz at *
    rcases zz with ⟨(e | d), f⟩
    · refine ⟨k, ?_, ?_⟩
      · cases e <;> (simp only [gave, gaveAll] at h1 ⊢; omega)
      · cases e <;> exact h2
    · refine ⟨k, ?_, h2⟩
      simp only [gaveAll] at h1 ⊢
      split
      · exact h1
      · simp only [gave]; omega

/-- The bytes collected by `gather`. -/
def gathered : Except Exc (Bytes × Bool × Bool) → Nat
  | .ok (c, _) => c.length
  | _ => 0

theorem Meter.Has.gather (rb : Nat) : ∀ (fuel : Nat) (acc : Bytes) (any : Bool) {s : LazyStream τ} {n : Nat}, M.Has s n →
    ∃ k, gathered (BoundaryIter.gather rb fuel acc any s).1 + k ≤ acc.length + n ∧
      M.Has (BoundaryIter.gather rb fuel acc any s).2 k := by
  intro fuel
  induction fuel with
  | zero => intro acc any s n h; exact ⟨n, by simp [gathered, BoundaryIter.gather], h⟩
  | succ fuel ih =>
    intro acc any s n h
    unfold BoundaryIter.gather
    obtain ⟨k, h1, h2⟩ := h.next
    generalize s.next = zz at *
    rcases zz with ⟨(e | (_ | c)), s1⟩
    · exact ⟨k, by simp only [gathered, gave] at h1 ⊢; omega, h2⟩
    · exact ⟨k, by simp only [gathered, gave] at h1 ⊢; omega, h2⟩
    · simp only [gave] at h1 h2 ⊢
      split
      · exact ⟨k, by simp only [gathered, List.length_append]; omega, h2⟩
      · split
        · exact ⟨k, by simp only [gathered, List.length_append]; omega, h2⟩
        · obtain ⟨j, h4, h5⟩ := ih (acc ++ c) true h2
          exact ⟨j, by simp only [List.length_append] at h4; omega, h5⟩

theorem findBoundary_le {sep data : Bytes} {a b : Nat} (h : BoundaryIter.findBoundary sep data = some (a, b)) : a ≤ b := by
  unfold BoundaryIter.findBoundary at h
  split at h
  · cases h
  · simp only [Option.some.injEq, Prod.mk.injEq] at h
    obtain ⟨rfl, rfl⟩ := h
    split <;> split <;> omega

/-- A part gives at most what the body gives. -/
def Meter.part (M : Meter τ) : Meter (BoundaryIter τ) where
  holds b n := M.Has b.stream n
  mono hn h := h.le hn
  next {b n} h := by
    obtain ⟨k, h1, h2⟩ := h.gather b.rollback (b.stream.size + 1) [] false
    change ∃ k, gave (BoundaryIter.next b).1 + k ≤ n ∧ M.Has (BoundaryIter.next b).2.stream k
    unfold BoundaryIter.next
    split
    · exact ⟨n, by simp [gave], h⟩
    · generalize BoundaryIter.gather b.rollback (b.stream.size + 1) [] false b.stream = zz at *
      rcases zz with ⟨(e | ⟨c, any, st⟩), s⟩
      · exact ⟨k, by simp only [gathered, gave, List.length_nil] at h1 ⊢; omega, h2⟩
      · simp only [gathered, List.length_nil, Nat.zero_add] at h1 h2 ⊢
        split
        · exact ⟨k, by simp only [gave]; omega, h2⟩
        · cases hf : BoundaryIter.findBoundary b.boundary c with
          | some p =>
            obtain ⟨en, nx⟩ := p
            have := findBoundary_le hf
            simp only
            have h3 := h2.unget (c.drop nx)
            generalize s.unget (c.drop nx) = zz at *
            rcases zz with ⟨(e | _), s2⟩
            · exact ⟨_, by simp only [gave, List.length_drop]; omega, h3⟩
            · exact ⟨_, by simp only [gave, List.length_drop, List.length_take]; omega, h3⟩
          | none =>
            simp only
            split
            · exact ⟨k, by simpa [gave] using h1, h2⟩
            · have h3 := h2.unget (c.drop (c.length - b.rollback))
              generalize s.unget (c.drop (c.length - b.rollback)) = zz at *
              rcases zz with ⟨(e | _), s2⟩
              · exact ⟨_, by simp only [gave, List.length_drop]; omega, h3⟩
              · exact ⟨_, by simp only [gave, List.length_drop, List.length_take]; omega, h3⟩

/-- The same with a `unicode` separator. -/
def Meter.textPart (M : Meter τ) : Meter (TextBoundaryIter τ) where
  holds t n := M.Has t.iter.stream n
  mono hn h := h.le hn
  next {t n} h := by
    obtain ⟨k, h1, h2⟩ := h.gather t.iter.rollback (t.iter.stream.size + 1) [] false
    have plain : ∃ k, gave t.iter.next.1 + k ≤ n ∧ M.Has t.iter.next.2.stream k := M.part.next (p := t.iter) h
    change ∃ k, gave (TextBoundaryIter.next t).1 + k ≤ n ∧ M.Has (TextBoundaryIter.next t).2.iter.stream k
    unfold TextBoundaryIter.next
    split
    · exact ⟨n, by simp [gave], h⟩
    · generalize BoundaryIter.gather t.iter.rollback (t.iter.stream.size + 1) [] false t.iter.stream = zz at *
      rcases zz with ⟨(e | ⟨c, any, st⟩), s⟩
      · exact plain
      · cases any with
        | false => exact plain
        | true =>
          simp only
          split
          · exact plain
          · exact ⟨k, by simp only [gathered, gave, List.length_nil] at h1 ⊢; omega, h2⟩

theorem Meter.Has.parseBoundaryStream (C : Codecs) {s : LazyStream τ} {n : Nat} (h : M.Has s n) (mx : Nat) :
    M.holds (Verif.parseBoundaryStream C s mx).2.producer n ∧
    ∀ t md, (Verif.parseBoundaryStream C s mx).1 = .ok (t, md) → t ≠ .raw → M.Has (Verif.parseBoundaryStream C s mx).2 n := by
  obtain ⟨k, h1, h2⟩ := h.read (some mx)
  have un : ∀ (s : LazyStream τ) c, (s.unget c).2.producer = s.producer := by
    intro s c
    unfold LazyStream.unget
    split
    · rfl
    · simp only
      split <;> rfl
  unfold Verif.parseBoundaryStream
  generalize s.read (some mx) = zz at *
  rcases zz with ⟨(e | c), s1⟩
  · exact ⟨M.mono (by omega) h2.producer, by simp⟩
  · simp only [gaveAll] at h1 h2 ⊢
    have hp : M.holds s1.producer n := M.mono (by omega) h2.producer
    cases Py.find b!"\r\n\r\n" c with
    | none =>
      simp only
      have := un s1 c
      generalize s1.unget c = zz at *
      rcases zz with ⟨(e | _), s2⟩ <;> simp only at this <;> rw [← this] at hp
      · exact ⟨hp, by simp⟩
      · exact ⟨hp, fun t md he ht => by cases he; exact absurd rfl ht⟩
    | some i =>
      simp only
      have h3 := h2.unget (c.drop (i + 4))
      have := un s1 (c.drop (i + 4))
      generalize s1.unget (c.drop (i + 4)) = zz at *
      rcases zz with ⟨(e | _), s2⟩ <;> simp only at this h3 <;> rw [← this] at hp
      · exact ⟨hp, by simp⟩
      · simp only
        cases partHeaders C (Py.splitPair 13 10 (c.take i)) .raw [] with
        | error e => exact ⟨hp, by simp⟩
        | ok z =>
          obtain ⟨t, out⟩ := z
          simp only
          split
          · rename_i ht
            subst ht
            have := un s2 c
            generalize s2.unget c = zz at *
            rcases zz with ⟨(e | _), s3⟩ <;> simp only at this <;> rw [← this] at hp
            · exact ⟨hp, by simp⟩
            · exact ⟨hp, fun t md he ht => by cases he; exact absurd rfl ht⟩
          · exact ⟨hp, fun _ _ _ _ => h3.le (by simp only [List.length_drop]; omega)⟩

theorem Meter.Has.fillBase64 : ∀ (fuel : Nat) (st : Bytes) {s : LazyStream τ} {n : Nat}, M.Has s n →
    ∃ k, gaveAll (Verif.fillBase64 fuel st s).1 + k ≤ st.length + n ∧ M.Has (Verif.fillBase64 fuel st s).2 k := by
  intro fuel
  induction fuel with
  | zero =>
    intro st s n h
    unfold Verif.fillBase64
    split <;> exact ⟨n, by simp [gaveAll], h⟩
  | succ fuel ih =>
    intro st s n h
    unfold Verif.fillBase64
    split
    · exact ⟨n, by simp [gaveAll], h⟩
    · obtain ⟨k, h1, h2⟩ := h.read (some (4 - st.length % 4 : Nat))
      generalize s.read (some (4 - st.length % 4 : Nat)) = zz at *
      rcases zz with ⟨(e | c), s1⟩
      · exact ⟨k, by simp only [gaveAll] at h1 ⊢; omega, h2⟩
      · simp only [gaveAll] at h1 h2
        simp only
        obtain ⟨j, h4, h5⟩ := ih (st ++ Py.removeSpaces c) h2
        have : (Py.removeSpaces c).length ≤ c.length := List.length_filter_le _ _
        exact ⟨j, by simp only [List.length_append] at h4; omega, h5⟩

theorem Meter.Has.fileChunk (fuel64 : Nat) (b64 : Bool) (c : Bytes) {s : LazyStream τ} {n : Nat} (h : M.Has s n) :
    ∃ k, gaveAll (Verif.fileChunk fuel64 b64 c s).1 + k ≤ c.length + n ∧ M.Has (Verif.fileChunk fuel64 b64 c s).2 k := by
  unfold Verif.fileChunk
  split
  · obtain ⟨k, h1, h2⟩ := h.fillBase64 fuel64 (Py.removeSpaces c)
    have : (Py.removeSpaces c).length ≤ c.length := List.length_filter_le _ _
    generalize Verif.fillBase64 fuel64 (Py.removeSpaces c) s = zz at *
    rcases zz with ⟨(e | d), s1⟩
    · exact ⟨k, by simp only [gaveAll] at h1 ⊢; omega, h2⟩
    · simp only [gaveAll] at h1 h2 ⊢
      cases hd : Py.b64decode d with
      | none => exact ⟨k, by simp only; omega, h2⟩
      | some x =>
        have := b64decode_length hd
        exact ⟨k, by simp only; omega, h2⟩
  · exact ⟨n, by simp [gaveAll], h⟩

theorem Meter.Has.exhaust {s : LazyStream τ} {n : Nat} (h : M.Has s n) : M.Has (Verif.exhaust s).2 n := by
  unfold Verif.exhaust
  generalize s.size + 1 = fuel
  induction fuel generalizing s n with
  | zero => exact h
  | succ fuel ih =>
    unfold exhaustLoop
    obtain ⟨k, h1, h2⟩ := h.next
    generalize s.next = zz at *
    rcases zz with ⟨(e | (_ | c)), s1⟩
    · exact h2.le (by omega)
    · exact h2.le (by omega)
    · exact (ih h2).le (by omega)

end

section
variable {ρ σ F τ : Type} [Producer τ] {M : Meter τ} {H : HandlerOps ρ σ F} {Idle Busy : Nat → σ → List F → Prop}

theorem Meter.Has.fileLoop (hk : H.Weighs Idle Busy) (fs : List F) (fuel64 : Nat) (b64 : Bool) :
    ∀ (fuel : Nat) {s : LazyStream τ} {n : Nat} (cs : List Nat) (w : σ) (b : Nat), M.Has s n → Busy b w fs →
    ∃ k j, k + j ≤ n ∧ M.Has (Verif.fileLoop H fuel64 b64 fuel s cs w).2.1 j ∧
      Busy (b + k) (Verif.fileLoop H fuel64 b64 fuel s cs w).2.2.2 fs := by
  intro fuel
  induction fuel with
  | zero => intro s n cs w b h hb; exact ⟨0, n, by omega, h, hb⟩
  | succ fuel ih =>
    intro s n cs w b h hb
    unfold Verif.fileLoop
    obtain ⟨k, h1, h2⟩ := h.next
    generalize s.next = zz at *
    rcases zz with ⟨(e | (_ | c)), s1⟩
    · exact ⟨0, k, by omega, h2, hb⟩
    · exact ⟨0, k, by omega, h2, hb⟩
    · simp only [gave] at h1 h2 ⊢
      obtain ⟨j, h3, h4⟩ := h2.fileChunk fuel64 b64 c
      generalize Verif.fileChunk fuel64 b64 c s1 = zz at *
      rcases zz with ⟨(e | d), s2⟩
      · exact ⟨0, j, by omega, h4, hb⟩
      · simp only [gaveAll] at h3 h4 ⊢
        have h5 := feedChunk_weighs hk fs (List.range H.count) d cs w b hb
        generalize feedChunk H (List.range H.count) d cs w = zz at *
        rcases zz with ⟨(e | _), cs1, w1⟩
        · exact ⟨d.length, j, by omega, h4, h5⟩
        · obtain ⟨k', j', h6, h7, h8⟩ := ih cs1 w1 _ h4 h5
          exact ⟨d.length + k', j', by omega, h7, by rw [← Nat.add_assoc]; exact h8⟩

theorem Meter.Has.receiveFile (hk : H.Weighs Idle Busy) (fs : List F) (fuel64 : Nat) (a : NewFileArgs)
    {s : LazyStream τ} {n : Nat} (w : σ) (b : Nat) (h : M.Has s n) (hb : Idle b w fs) :
    ∃ k j, k + j ≤ n ∧ M.Has (Verif.receiveFile H fuel64 a s w).2.1 j ∧
      Idle (b + k) (Verif.receiveFile H fuel64 a s w).2.2.2 fs ∧
      ((Verif.receiveFile H fuel64 a s w).1 = .ok () → Busy (b + k) (Verif.receiveFile H fuel64 a s w).2.2.2 fs) := by
  unfold Verif.receiveFile
  simp only
  have hn := hk.newFiles b a w fs hb
  generalize newFiles H a (List.range H.count) w = zz at *
  rcases zz with ⟨(e | _), w1⟩
  · exact ⟨0, n, by omega, h, hn.1, by simp⟩
  · obtain ⟨k, j, h1, h2, h3⟩ := h.fileLoop hk fs fuel64 (a.transferEncoding = some b!"base64") (s.size + 1)
      (List.replicate H.count 0) w1 b (hn.2 rfl)
    exact ⟨k, j, h1, h2, hk.idle _ _ _ h3, fun _ => h3⟩

theorem handlePart_metered (hk : H.Weighs Idle Busy) (C : Codecs) (S : Settings) (fuel64 : Nat) (t : ItemType) (md : MetaData)
    {s : LazyStream τ} {n b : Nat} {st : PState σ F} (hp : M.holds s.producer n) (hs : t ≠ .raw → M.Has s n)
    (hst : st.Weighed Idle Busy b) :
    ∃ k j, k + j ≤ n ∧ M.holds (handlePart C S H fuel64 t md s st).2.1.producer j ∧
      (handlePart C S H fuel64 t md s st).2.2.Weighed Idle (fun _ _ _ => True) (b + k) ∧
      ((handlePart C S H fuel64 t md s st).1 = .ok () →
        (handlePart C S H fuel64 t md s st).2.2.Weighed Idle Busy (b + k)) := by
  unfold handlePart
  have h1 := completeOld_weighs hk b st hst
  generalize completeOld H st = zz at *
  rcases zz with ⟨(e | _), st1⟩
  · exact ⟨0, n, by omega, hp, h1.1, by simp⟩
  simp only at h1 ⊢
  obtain ⟨hw, ho⟩ := h1
  have ho := ho trivial
  obtain ⟨k0, g1, g2, _⟩ := hw.idle
  have ht : st1.Weighed Idle Busy b := ⟨k0, g1, g2, fun c m hm => absurd hm (ho c m)⟩
  cases partName md with
  | none => exact ⟨0, n, by omega, hp, hw, fun _ => ht⟩
  | some dn =>
    obtain ⟨d, nm⟩ := dn
    simp only
    cases forceText nm.strip with
    | error e => exact ⟨0, n, by omega, hp, hw, by simp⟩
    | ok name =>
      cases t with
      | raw => exact ⟨0, n, by omega, hp, hw, by simp⟩
      | field =>
        have hs := hs (by simp)
        simp only [handleField]
        split
        · exact ⟨0, n, by omega, hp, ⟨k0, g1, g2, by simp⟩, by simp⟩
        · obtain ⟨j, r1, r2⟩ := hs.read (S.dataMaxMemory.map (· - (st1.numBytes : Int)))
          generalize s.read (S.dataMaxMemory.map (· - (st1.numBytes : Int))) = zz at *
          rcases zz with ⟨(e | raw), s1⟩
          · exact ⟨0, j, by omega, r2.producer, ⟨k0, g1, g2, by simp⟩, by simp⟩
          · simp only [gaveAll] at r1 r2 ⊢
            have e1 := storeField_world C S name (transferEnc md) md raw { st1 with numKeys := st1.numKeys + 1 }
            have e2 := storeField_oldField C S name (transferEnc md) md raw { st1 with numKeys := st1.numKeys + 1 }
            have e3 := storeField_bytes C S name (transferEnc md) md raw { st1 with numKeys := st1.numKeys + 1 }
            simp only at e1 e2 e3
            refine ⟨raw.length, j, r1, r2.producer, ⟨k0, by omega, by rw [e1.1, e1.2]; exact g2, by simp⟩,
              fun _ => ⟨k0, by omega, by rw [e1.1, e1.2]; exact g2, ?_⟩⟩
            intro c m hm
            rw [e2] at hm
            exact absurd hm (ho c m)
      | file =>
        have hs := hs (by simp)
        simp only [handleFile]
        cases dispositionFileName d with
        | error e => exact ⟨0, n, by omega, hp, hw, by simp⟩
        | ok fn =>
          simp only
          split
          · exact ⟨0, n, by omega, hp, hw, fun _ => ht⟩
          · obtain ⟨k, j, r1, r2, r3, r4⟩ := hs.receiveFile hk (filesOf st1.files) fuel64
              (fileArgs name fn (transferEnc md) md) st1.world k0 g2
            generalize Verif.receiveFile H fuel64 (fileArgs name fn (transferEnc md) md) s st1.world = zz at *
            rcases zz with ⟨(e | _), s1, cs, w1⟩
            · have err : ∃ k j, k + j ≤ n ∧ M.holds s1.producer j ∧
                  ({ st1 with world := w1, counters := cs } : PState σ F).Weighed Idle (fun _ _ _ => True) (b + k) :=
                ⟨k, j, r1, r2.producer, ⟨k0 + k, by simp only; omega, r3, by simp⟩⟩
              by_cases he : e = .skipFile
              · subst he
                simp only
                have h3 := closeFiles_weighs hk (filesOf st1.files) _ (List.range H.count) w1 r3
                generalize closeFiles H (List.range H.count) w1 = zz at *
                rcases zz with ⟨(e | _), w2⟩
                · exact ⟨k, j, r1, r2.producer, ⟨k0 + k, by simp only; omega, h3, by simp⟩, by simp⟩
                · simp only
                  have h4 := r2.exhaust
                  generalize Verif.exhaust s1 = zz at *
                  rcases zz with ⟨(e | _), s2⟩
                  · exact ⟨k, j, r1, h4.producer, ⟨k0 + k, by simp only; omega, h3, by simp⟩, by simp⟩
                  · exact ⟨k, j, r1, h4.producer, ⟨k0 + k, by simp only; omega, h3, by simp⟩,
                      fun _ => ⟨k0 + k, by simp only; omega, h3, fun c m hm => absurd hm (ho c m)⟩⟩
              · obtain ⟨k, j, q1, q2, q3⟩ := err
                cases e <;> first | exact ⟨k, j, q1, q2, q3, by simp⟩ | exact absurd rfl he
            · exact ⟨k, j, r1, r2.producer, ⟨k0 + k, by simp only; omega, r3, by simp⟩,
                fun _ => ⟨k0 + k, by simp only; omega, r3, fun _ _ _ => r4 rfl⟩⟩

end

section
variable {ρ σ F : Type} [Producer ρ] {M : Meter ρ} {H : HandlerOps ρ σ F} {Idle Busy : Nat → σ → List F → Prop}

theorem PState.Weighed.more {n m : Nat} {B : Nat → σ → List F → Prop} {st : PState σ F} (h : st.Weighed Idle B n) (hn : n ≤ m) :
    st.Weighed Idle (fun _ _ _ => True) m := by
  obtain ⟨k, h1, h2, _⟩ := h.idle
  exact ⟨k, by omega, h2, by simp⟩

theorem Meter.Has.create {τ : Type} [Producer τ] {M : Meter τ} {s : LazyStream τ} {n : Nat} (h : M.Has s n) (sep : Bytes) :
    M.Has (BoundaryIter.create s sep).2 n ∧ ∀ b, (BoundaryIter.create s sep).1 = .ok b → M.Has b.stream n := by
  unfold BoundaryIter.create
  obtain ⟨k, h1, h2⟩ := h.read (some 1)
  generalize s.read (some 1) = zz at *
  rcases zz with ⟨(e | c), s1⟩
  · exact ⟨h2.le (by omega), by simp⟩
  · simp only [gaveAll] at h1 h2 ⊢
    split
    · exact ⟨h2.le (by omega), by simp⟩
    · have h3 := h2.unget c
      generalize s1.unget c = zz at *
      rcases zz with ⟨(e | _), s2⟩
      · exact ⟨h3.le h1, by simp⟩
      · exact ⟨h3.le h1, fun b hb => by cases hb; exact h3.le h1⟩

theorem partsLoop_metered (hk : H.Weighs Idle Busy) (C : Codecs) (S : Settings) (fuel64 : Nat) (sep : Bytes) :
    ∀ (fuel : Nat) {s : LazyStream (ChunkIter ρ)} {st : PState σ F} {n b : Nat}, M.chunks.Has s n → st.Weighed Idle Busy b →
    (partsLoop C S H fuel64 sep fuel s st).2.2.Weighed Idle (fun _ _ _ => True) (b + n) := by
  intro fuel
  induction fuel with
  | zero => intro s st n b hs h; exact h.more (by omega)
  | succ fuel ih =>
    intro s st n b hs h
    unfold partsLoop nextPart
    have hc := hs.create sep
    generalize BoundaryIter.create s sep = zz at *
    rcases zz with ⟨(e | bi), s1⟩
    · cases e <;> exact h.more (by omega)
    · simp only
      have hb := hc.2 bi rfl
      have h0 : M.chunks.part.Has (LazyStream.mk' bi) n := .fresh hb
      obtain ⟨p1, p2⟩ := h0.parseBoundaryStream C 1024
      generalize parseBoundaryStream C (LazyStream.mk' bi) 1024 = zz at *
      rcases zz with ⟨(e | ⟨t, md⟩), sub1⟩
      · exact h.more (by omega)
      · simp only at p1 p2 ⊢
        obtain ⟨k, j, q1, q2, q3, q4⟩ := handlePart_metered hk C S fuel64 t md p1 (p2 t md rfl) h
        generalize handlePart C S H fuel64 t md sub1 st = zz at *
        rcases zz with ⟨(e | _), sub2, st2⟩
        · exact q3.more (by omega)
        · exact (ih (s := sub2.producer.stream) q2 (q4 rfl)).more (by omega)

theorem textPartsLoop_metered (hk : H.Weighs Idle Busy) (C : Codecs) (S : Settings) (fuel64 : Nat) (sep : Bytes) :
    ∀ (fuel : Nat) {s : LazyStream (ChunkIter ρ)} {st : PState σ F} {n b : Nat}, M.chunks.Has s n → st.Weighed Idle Busy b →
    (textPartsLoop C S H fuel64 sep fuel s st).2.2.Weighed Idle (fun _ _ _ => True) (b + n) := by
  intro fuel
  induction fuel with
  | zero => intro s st n b hs h; exact h.more (by omega)
  | succ fuel ih =>
    intro s st n b hs h
    unfold textPartsLoop nextTextPart
    have hc := hs.create sep
    generalize BoundaryIter.create s sep = zz at *
    rcases zz with ⟨(e | bi), s1⟩
    · cases e <;> exact h.more (by omega)
    · simp only
      have hb := hc.2 bi rfl
      have h0 : M.chunks.textPart.Has (LazyStream.mk' ⟨bi⟩) n := .fresh hb
      obtain ⟨p1, p2⟩ := h0.parseBoundaryStream C 1024
      generalize parseBoundaryStream C (LazyStream.mk' (⟨bi⟩ : TextBoundaryIter (ChunkIter ρ))) 1024 = zz at *
      rcases zz with ⟨(e | ⟨t, md⟩), sub1⟩
      · exact h.more (by omega)
      · simp only at p1 p2 ⊢
        obtain ⟨k, j, q1, q2, q3, q4⟩ := handlePart_metered hk C S fuel64 t md p1 (p2 t md rfl) h
        generalize handlePart C S H fuel64 t md sub1 st = zz at *
        rcases zz with ⟨(e | _), sub2, st2⟩
        · exact q3.more (by omega)
        · exact (ih (s := sub2.producer.iter.stream) q2 (q4 rfl)).more (by omega)

omit [Producer ρ] in
theorem finishParse_metered (hk : H.Weighs Idle Busy) (s : LazyStream ρ) {st : PState σ F} {n : Nat}
    (h : st.Weighed Idle (fun _ _ _ => True) n) :
    (∃ fs, Idle n (finishParse H s st).2.2 fs) ∧
    ∀ post files, (finishParse H s st).1 = .ok (post, files) →
      ∃ k, k + fieldBytes post ≤ n ∧ Idle k (finishParse H s st).2.2 (filesOf files) := by
  obtain ⟨k, h1, h2, _⟩ := h.idle
  unfold finishParse
  have := uploadCompleteLoop_weighs hk (filesOf st.files) k (List.range H.count) st.world h2
  generalize uploadCompleteLoop H (List.range H.count) st.world = zz at *
  rcases zz with ⟨(e | _), w⟩
  · exact ⟨⟨_, hk.monoIdle k _ _ _ (by omega) this⟩, by simp⟩
  · refine ⟨⟨_, hk.monoIdle k _ _ _ (by omega) this⟩, ?_⟩
    intro post files he
    simp only [Except.ok.injEq, Prod.mk.injEq] at he
    rw [← he.2, ← he.1]; exact ⟨k, h1, this⟩

/-- Fields and files have at most as many bytes as the stream gives; whatever it raises, whatever kind the boundary is,
and however parsing ends. -/
theorem run_metered (hk : H.Weighs Idle Busy) (C : Codecs) (S : Settings) (fuel64 : Nat) (text : Bool) (m : MultiPart)
    (hl : m.contentLength ≠ 0) {input input1 : LazyStream ρ} {w w1 : σ} {n : Nat}
    (hraw : rawInputLoop H { contentLength := m.contentLength, boundary := m.boundary, settings := S }
      (List.range H.count) input w = (.ok none, input1, w1)) (hi : M.Has input1 n) (h : Idle 0 w1 []) :
    (∃ fs, Idle n (m.run C S H fuel64 text input w).2.2 fs) ∧
    ∀ post files, (m.run C S H fuel64 text input w).1 = .ok (post, files) →
      ∃ k, k + fieldBytes post ≤ n ∧ Idle k (m.run C S H fuel64 text input w).2.2 (filesOf files) := by
  have hst : PState.Weighed (σ := σ) (F := F) Idle Busy 0 { world := w1, counters := List.replicate H.count 0 } :=
    ⟨0, by simp [fieldBytes, filesOf, Spec.items], by simpa [filesOf, Spec.items] using h, by simp⟩
  have hb : M.chunks.Has (LazyStream.mk' ⟨input1, m.chunkSize⟩) n := .fresh hi
  have idle : ∀ {st : PState σ F}, st.Weighed Idle (fun _ _ _ => True) n → Idle n st.world (filesOf st.files) := by
    intro st h
    obtain ⟨k, h1, h2, _⟩ := h.idle
    exact hk.monoIdle k _ _ _ (by omega) h2
  have close : ∀ {st : PState σ F}, st.Weighed Idle (fun _ _ _ => True) n →
      ({ st with world := (closeFiles H (List.range H.count) st.world).2 } : PState σ F).Weighed Idle (fun _ _ _ => True) n := by
    intro st h
    obtain ⟨k, h1, h2, _⟩ := h.idle
    exact ⟨k, h1, closeFiles_weighs hk _ _ _ _ h2, by simp⟩
  have fin : ∀ (s : LazyStream ρ) {st : PState σ F}, st.Weighed Idle (fun _ _ _ => True) n → _ :=
    fun s st h => finishParse_metered (st := st) hk s h
  have zero : ∃ fs, Idle n w1 fs := ⟨_, hk.monoIdle 0 n _ _ (Nat.zero_le _) h⟩
  unfold MultiPart.run
  cases text with
  | true =>
    rw [if_pos rfl]
    unfold MultiPart.parseText
    rw [if_neg hl, hraw]
    simp only
    cases emptyQueryDict C S with
    | error e => exact ⟨zero, by simp⟩
    | ok u =>
      simp only
      have := textPartsLoop_metered hk C S fuel64 (b!"--" ++ m.boundary)
        ((LazyStream.mk' (⟨input1, m.chunkSize⟩ : ChunkIter ρ)).size + 1) hb hst
      rw [Nat.zero_add] at this
      generalize textPartsLoop C S H fuel64 (b!"--" ++ m.boundary)
        ((LazyStream.mk' (⟨input1, m.chunkSize⟩ : ChunkIter ρ)).size + 1)
        (LazyStream.mk' ⟨input1, m.chunkSize⟩) { world := w1, counters := List.replicate H.count 0 } = zz at *
      rcases zz with ⟨(e | _), body, st⟩
      · by_cases he : ∃ b, e = .stopUpload b
        · obtain ⟨b, rfl⟩ := he
          simp only
          have h2 := close this
          generalize closeFiles H (List.range H.count) st.world = zz at *
          rcases zz with ⟨(e | _), w2⟩
          · exact ⟨⟨_, idle h2⟩, by simp⟩
          · simp only
            split
            · exact fin _ h2
            · generalize exhaust body.producer.flo = zz at *
              rcases zz with ⟨(e | _), s3⟩
              · exact ⟨⟨_, idle h2⟩, by simp⟩
              · exact fin _ h2
        · cases e <;> first | exact ⟨⟨_, idle this⟩, by simp⟩ | exact absurd ⟨_, rfl⟩ he
      · simp only
        generalize exhaust body.producer.flo = zz at *
        rcases zz with ⟨(e | _), s3⟩
        · exact ⟨⟨_, idle this⟩, by simp⟩
        · exact fin _ this
  | false =>
    rw [if_neg (by simp)]
    unfold MultiPart.parse
    rw [if_neg hl, hraw]
    simp only
    cases emptyQueryDict C S with
    | error e => exact ⟨zero, by simp⟩
    | ok u =>
      simp only
      have := partsLoop_metered hk C S fuel64 (b!"--" ++ m.boundary)
        ((LazyStream.mk' (⟨input1, m.chunkSize⟩ : ChunkIter ρ)).size + 1) hb hst
      rw [Nat.zero_add] at this
      generalize partsLoop C S H fuel64 (b!"--" ++ m.boundary)
        ((LazyStream.mk' (⟨input1, m.chunkSize⟩ : ChunkIter ρ)).size + 1)
        (LazyStream.mk' ⟨input1, m.chunkSize⟩) { world := w1, counters := List.replicate H.count 0 } = zz at *
      rcases zz with ⟨(e | _), body, st⟩
      · by_cases he : ∃ b, e = .stopUpload b
        · obtain ⟨b, rfl⟩ := he
          simp only
          have h2 := close this
          generalize closeFiles H (List.range H.count) st.world = zz at *
          rcases zz with ⟨(e | _), w2⟩
          · exact ⟨⟨_, idle h2⟩, by simp⟩
          · simp only
            split
            · exact fin _ h2
            · generalize exhaust body.producer.flo = zz at *
              rcases zz with ⟨(e | _), s3⟩
              · exact ⟨⟨_, idle h2⟩, by simp⟩
              · exact fin _ h2
        · cases e <;> first | exact ⟨⟨_, idle this⟩, by simp⟩ | exact absurd ⟨_, rfl⟩ he
      · simp only
        generalize exhaust body.producer.flo = zz at *
        rcases zz with ⟨(e | _), s3⟩
        · exact ⟨⟨_, idle this⟩, by simp⟩
        · exact fin _ this

end
end Verif
