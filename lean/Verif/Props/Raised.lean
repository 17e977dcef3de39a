import Verif.Props.Request
import Verif.Props.Query
import Verif.Props.Announced
/-!
# C143: raising a limit

`DATA_UPLOAD_MAX_MEMORY_SIZE` and `DATA_UPLOAD_MAX_NUMBER_FIELDS` are meant to refuse input, not to change it: what is
accepted under a limit should be accepted under a higher one, with the same result.  Multipart parsing does so, for all
streams and handlers.  For whole requests it is false: `0` is no limit on the fields of a query string, but `1` is, and
without a memory limit no body is accepted at all (C41).  It holds for the other limits.
-/

namespace Verif

/-- The limit `b` allows whatever the limit `a` allows (`none` is no limit). -/
def Spec.Allows : (a b : Option Int) → Prop
  | _, none => True
  | none, some _ => False
  | some n, some m => n ≤ m

/-- What a limit of multipart parsing makes of a body it refuses: too many fields, too much data, base64 data cut
short, no byte left to read, or a part of a chunk pushed back too often. -/
def Spec.LimitRefusal (e : Exc) : Prop :=
  e ∈ [Exc.tooManyFieldsSent, .requestDataTooBig, .typeError, .assertionError, .suspiciousMultipartForm]

/-- A handler that takes the raw input does not look at the two limits. -/
def IgnoresLimits {ρ σ F : Type} (H : HandlerOps ρ σ F) : Prop :=
  ∀ i cl bd (S : Settings) n1 n2 s w, H.rawInput i ⟨cl, bd, { S with dataMaxMemory := n1, maxFields := n2 }⟩ s w =
    H.rawInput i ⟨cl, bd, S⟩ s w

/-- The same settings with other limits. -/
def Settings.limits (S : Settings) (mem fields : Option Int) : Settings :=
  { S with dataMaxMemory := mem, maxFields := fields }

open Spec

section
variable {τ : Type} [Producer τ]

theorem next_length (s : LazyStream τ) : s.next.2.length = s.length := by
  unfold LazyStream.next
  split
  · rfl
  · split <;> rfl

omit [Producer τ] in
theorem unget_length (s : LazyStream τ) (b : Bytes) : (s.unget b).2.length = s.length := by
  unfold LazyStream.unget
  split
  · rfl
  · simp only
    split <;> rfl

theorem readLoop_length : ∀ (fuel rem : Nat) (acc : Bytes) (s : LazyStream τ),
    (LazyStream.readLoop fuel rem acc s).2.length = s.length := by
  intro fuel
  induction fuel with
  | zero => intro rem acc s; unfold LazyStream.readLoop; split <;> rfl
  | succ fuel ih =>
    intro rem acc s
    unfold LazyStream.readLoop
    split
    · rfl
    · have hn := next_length s
      rcases h : s.next with ⟨(e | (_ | chunk)), s1⟩
      · rw [h] at hn; exact hn
      · rw [h] at hn; exact hn
      · rw [h] at hn
        simp only at hn ⊢
        have hu := unget_length s1 (chunk.drop rem)
        rcases h2 : s1.unget (chunk.drop rem) with ⟨(e | _), s2⟩
        · rw [h2] at hu; exact hu.trans hn
        · rw [h2] at hu
          exact (ih _ _ _).trans (hu.trans hn)

theorem read_some_length (s : LazyStream τ) (n : Int) : (s.read (some n)).2.length = s.length := by
  unfold LazyStream.read
  simp only
  split
  · rfl
  · exact readLoop_length _ _ _ _

theorem parseBoundaryStream_length (C : Codecs) (s : LazyStream τ) (n : Nat) :
    (parseBoundaryStream C s n).2.length = s.length := by
  have h1 := read_some_length s n
  unfold parseBoundaryStream
  generalize s.read (some (n : Int)) = z at h1 ⊢
  rcases z with ⟨(e | chunk), s1⟩
  · exact h1
  · simp only at h1 ⊢
    cases Py.find b!"\r\n\r\n" chunk with
    | none =>
      simp only
      have h2 := unget_length s1 chunk
      generalize s1.unget chunk = z at h2 ⊢
      rcases z with ⟨(e | _), s2⟩ <;> exact h2.trans h1
    | some i =>
      simp only
      have h2 := unget_length s1 (chunk.drop (i + 4))
      generalize s1.unget (chunk.drop (i + 4)) = z at h2 ⊢
      rcases z with ⟨(e | _), s2⟩
      · exact h2.trans h1
      · simp only at h2 ⊢
        cases partHeaders C (Py.splitPair 13 10 (chunk.take i)) .raw [] with
        | error e => exact h2.trans h1
        | ok p =>
          simp only
          split
          · have h3 := unget_length s2 chunk
            generalize s2.unget chunk = z at h3 ⊢
            rcases z with ⟨(e | _), s3⟩ <;> exact h3.trans (h2.trans h1)
          · exact h2.trans h1

/-- Reading at most `rem` bytes does what reading at most `rem'` does (`none`: all), unless at least `rem` bytes were
read or the rest of a chunk could not be pushed back. -/
theorem readLoop_raise : ∀ (fuel rem : Nat) (rem' : Option Nat) (acc : Bytes) (s : LazyStream τ),
    (∀ k, rem' = some k → rem ≤ k) →
    LazyStream.readLoop fuel rem acc s =
      (match rem' with
        | none => LazyStream.joinAll fuel acc s
        | some k => LazyStream.readLoop fuel k acc s) ∨
    (LazyStream.readLoop fuel rem acc s).1 = .error .suspiciousMultipartForm ∨
    ∃ out, (LazyStream.readLoop fuel rem acc s).1 = .ok (acc ++ out) ∧ rem ≤ out.length := by
  intro fuel
  induction fuel with
  | zero =>
    intro rem rem' acc s hle
    by_cases h0 : rem = 0
    · right; right
      exact ⟨[], by simp [LazyStream.readLoop, h0], by simp [h0]⟩
    · left
      cases rem' with
      | none => simp [LazyStream.readLoop, LazyStream.joinAll, h0]
      | some k =>
        have := hle k rfl
        simp [LazyStream.readLoop, h0, show k ≠ 0 by omega]
  | succ fuel ih =>
    intro rem rem' acc s hle
    by_cases h0 : rem = 0
    · right; right
      exact ⟨[], by simp [LazyStream.readLoop, h0], by simp [h0]⟩
    · by_cases hbig : ∃ chunk s1, s.next = (.ok (some chunk), s1) ∧ rem ≤ chunk.length
      · obtain ⟨chunk, s1, hn, hc⟩ := hbig
        right
        unfold LazyStream.readLoop
        rw [if_neg h0, hn]
        simp only
        rcases h2 : s1.unget (chunk.drop rem) with ⟨(e | _), s2⟩
        · left
          simp only
          unfold LazyStream.unget at h2
          split at h2
          · simp at h2
          · simp only at h2
            split at h2 <;> simp at h2
            rw [← h2.1]
        · right
          simp only [List.length_take, Nat.min_eq_left hc, Nat.sub_self]
          refine ⟨chunk.take rem, ?_, by simp; omega⟩
          cases fuel <;> simp [LazyStream.readLoop]
      · have e1 : ∀ k, rem ≤ k → LazyStream.readLoop (fuel + 1) k acc s =
            match s.next with
            | (.error e, s) => (.error e, s)
            | (.ok none, s) => (.ok acc, s)
            | (.ok (some chunk), s) => LazyStream.readLoop fuel (k - chunk.length) (acc ++ chunk) s := by
          intro k hk
          conv_lhs => unfold LazyStream.readLoop
          rw [if_neg (by omega)]
          rcases hn : s.next with ⟨(e | (_ | chunk)), s1⟩
          · rfl
          · rfl
          · have : chunk.length < rem := by
              by_contra hx
              exact hbig ⟨chunk, s1, hn, by omega⟩
            simp only
            rw [List.drop_of_length_le (by omega), List.take_of_length_le (by omega)]
            simp only [LazyStream.unget, if_true]
        rw [e1 rem (le_refl _)]
        have e2 : (match rem' with
            | none => LazyStream.joinAll (fuel + 1) acc s
            | some k => LazyStream.readLoop (fuel + 1) k acc s) =
            match s.next with
            | (.error e, s) => (.error e, s)
            | (.ok none, s) => (.ok acc, s)
            | (.ok (some chunk), s) =>
              match rem'.map (· - chunk.length) with
              | none => LazyStream.joinAll fuel (acc ++ chunk) s
              | some k => LazyStream.readLoop fuel k (acc ++ chunk) s := by
          cases rem' with
          | none =>
            simp only [Option.map_none]
            conv_lhs => unfold LazyStream.joinAll
            rcases s.next with ⟨(e | (_ | chunk)), s1⟩ <;> rfl
          | some k =>
            simp only [Option.map_some]
            exact e1 k (hle k rfl)
        rw [e2]
        rcases hn : s.next with ⟨(e | (_ | chunk)), s1⟩
        · exact .inl rfl
        · exact .inl rfl
        · simp only
          rcases ih (rem - chunk.length) (rem'.map (· - chunk.length)) (acc ++ chunk) s1 (by
              intro k hk
              cases rem' with
              | none => simp at hk
              | some k' => simp at hk; have := hle k' rfl; omega) with h | h | ⟨out, h, hl⟩
          · exact .inl h
          · exact .inr (.inl h)
          · refine .inr (.inr ⟨chunk ++ out, by simpa using h, by simp; omega⟩)

/-- The read of a form field under two limits. -/
theorem read_raise (s : LazyStream τ) (hl : s.length = none) (n : Int) (b : Option Int) (m : Nat)
    (hab : Allows (some n) b) :
    s.read (some (n - m)) = s.read (b.map (· - (m : Int))) ∨
    (∃ e, (s.read (some (n - m))).1 = .error e ∧ LimitRefusal e) ∨
    ∃ out, (s.read (some (n - m))).1 = .ok out ∧ n < (out.length + m + 2 : Nat) := by
  by_cases h0 : n - (m : Int) < 0
  · right; left
    refine ⟨.assertionError, ?_, by simp [LimitRefusal]⟩
    simp [LazyStream.read, h0]
  · have e1 : s.read (some (n - m)) = LazyStream.readLoop (s.size + 1) (n - m).toNat [] s := by
      simp [LazyStream.read, h0]
    rw [e1]
    rcases readLoop_raise (s.size + 1) (n - m).toNat (b.map (fun k : Int => (k - (m : Int)).toNat)) [] s (by
        intro k hk
        cases b with
        | none => simp at hk
        | some x =>
          simp at hk
          have : n ≤ x := hab
          omega) with h | h | ⟨out, h, hlen⟩
    · left
      rw [h]
      cases b with
      | none => simp [LazyStream.read, hl]
      | some x =>
        have : n ≤ x := hab
        simp only [Option.map_some, LazyStream.read]
        rw [if_neg (by omega)]
    · exact .inr (.inl ⟨_, h, by simp [LimitRefusal]⟩)
    · right; right
      exact ⟨out, by simpa using h, by omega⟩

variable {ρ σ F : Type}

omit [Producer τ] in
theorem storeField_raise (C : Codecs) (S : Settings) (a b c d : Option Int) (hab : Allows a b) (name : Bytes)
    (te : Option Bytes) (md : MetaData) (raw : Bytes) (st : PState σ F) :
    storeField C (S.limits a c) name te md raw st = storeField C (S.limits b d) name te md raw st ∨
    ∃ e, (storeField C (S.limits a c) name te md raw st).1 = .error e ∧ LimitRefusal e := by
  unfold storeField
  simp only
  cases (if te = some b!"base64" then Py.b64decode raw else some raw) with
  | none => exact .inl rfl
  | some data =>
    simp only
    by_cases h : (S.limits a c).dataMaxMemory.any (· < ((st.numBytes + raw.length + (name.length + 2) : Nat) : Int)) =
        true
    · right
      rw [if_pos h]
      exact ⟨_, rfl, by simp [LimitRefusal]⟩
    · left
      rw [if_neg h, if_neg]
      · rfl
      · intro hb
        apply h
        simp only [Settings.limits] at hb ⊢
        cases b with
        | none => simp at hb
        | some m =>
          cases a with
          | none => exact hab.elim
          | some n =>
            have : n ≤ m := hab
            simp only [Option.any_some, decide_eq_true_eq] at hb ⊢
            omega

theorem handleField_raise (C : Codecs) (S : Settings) (a b c d : Option Int) (hab : Allows a b) (hcd : Allows c d)
    (name : Bytes) (te : Option Bytes) (md : MetaData) (s : LazyStream τ) (hl : s.length = none) (st : PState σ F) :
    handleField C (S.limits a c) name te md s st = handleField C (S.limits b d) name te md s st ∨
    ∃ e, (handleField C (S.limits a c) name te md s st).1 = .error e ∧ LimitRefusal e := by
  unfold handleField
  simp only
  by_cases hc : (S.limits a c).maxFields.any (· < ((st.numKeys + 1 : Nat) : Int)) = true
  · right
    rw [if_pos hc]
    exact ⟨_, rfl, by simp [LimitRefusal]⟩
  · have hd : ¬ (S.limits b d).maxFields.any (· < ((st.numKeys + 1 : Nat) : Int)) = true := by
      intro hd
      apply hc
      simp only [Settings.limits] at hd ⊢
      cases d with
      | none => simp at hd
      | some m =>
        cases c with
        | none => exact hcd.elim
        | some n =>
          have : n ≤ m := hcd
          simp only [Option.any_some, decide_eq_true_eq] at hd ⊢
          omega
    rw [if_neg hc, if_neg hd]
    have key : ∀ raw s', (match storeField C (S.limits a c) name te md raw { st with numKeys := st.numKeys + 1 } with
          | (r, st) => ((r, s', st) : Res (LazyStream τ × PState σ F) Unit)) =
        (match storeField C (S.limits b d) name te md raw { st with numKeys := st.numKeys + 1 } with
          | (r, st) => (r, s', st)) ∨
        ∃ e, (match storeField C (S.limits a c) name te md raw { st with numKeys := st.numKeys + 1 } with
          | (r, st) => ((r, s', st) : Res (LazyStream τ × PState σ F) Unit)).1 = .error e ∧ LimitRefusal e := by
      intro raw s'
      rcases storeField_raise C S a b c d hab name te md raw { st with numKeys := st.numKeys + 1 } with h | ⟨e, h, he⟩
      · left; rw [h]
      · right; exact ⟨e, h, he⟩
    cases a with
    | none =>
      cases b with
      | some m => exact hab.elim
      | none =>
        simp only [Settings.limits, Option.map_none] at key ⊢
        rcases s.read none with ⟨(e | raw), s'⟩
        · exact .inl rfl
        · exact key raw s'
    | some n =>
      have hr := read_raise s hl n b st.numBytes hab
      simp only [Settings.limits, Option.map_some] at key ⊢
      rcases hr with h | ⟨e, h, he⟩ | ⟨out, h, ho⟩
      · rw [← h]
        rcases s.read (some (n - (st.numBytes : Int))) with ⟨(e | raw), s'⟩
        · exact .inl rfl
        · exact key raw s'
      · right
        rcases hx : s.read (some (n - (st.numBytes : Int))) with ⟨(e' | raw), s'⟩
        · rw [hx] at h
          simp only [Except.error.injEq] at h
          exact ⟨e, by simp [h], he⟩
        · rw [hx] at h; simp at h
      · right
        rcases hx : s.read (some (n - (st.numBytes : Int))) with ⟨(e' | raw), s'⟩
        · rw [hx] at h; simp at h
        · rw [hx] at h
          simp only [Except.ok.injEq] at h
          subst h
          simp only
          unfold storeField
          simp only
          cases (if te = some b!"base64" then Py.b64decode raw else some raw) with
          | none => exact ⟨.typeError, rfl, by simp [LimitRefusal]⟩
          | some data =>
            simp only
            rw [if_pos (by simp only [Option.any_some, decide_eq_true_eq]; omega)]
            exact ⟨.requestDataTooBig, rfl, by simp [LimitRefusal]⟩

theorem handlePart_raise (C : Codecs) (S : Settings) (a b c d : Option Int) (hab : Allows a b) (hcd : Allows c d)
    (H : HandlerOps ρ σ F) (fuel64 : Nat) (t : ItemType) (md : MetaData) (s : LazyStream τ) (hl : s.length = none)
    (st : PState σ F) :
    handlePart C (S.limits a c) H fuel64 t md s st = handlePart C (S.limits b d) H fuel64 t md s st ∨
    ∃ e, (handlePart C (S.limits a c) H fuel64 t md s st).1 = .error e ∧ LimitRefusal e := by
  unfold handlePart
  rcases completeOld H st with ⟨(e | _), st1⟩
  · exact .inl rfl
  · simp only
    cases partName md with
    | none => exact .inl rfl
    | some dn =>
      simp only
      cases forceText dn.2.strip with
      | error e => exact .inl rfl
      | ok name =>
        simp only
        cases t with
        | raw => exact .inl rfl
        | file => exact .inl rfl
        | field => exact handleField_raise C S a b c d hab hcd _ _ _ _ hl _

end

section
variable {ρ σ F : Type} [Producer ρ]

theorem partsLoop_raise (C : Codecs) (S : Settings) (a b c d : Option Int) (hab : Allows a b) (hcd : Allows c d)
    (H : HandlerOps ρ σ F) (fuel64 : Nat) (sep : Bytes) :
    ∀ (fuel : Nat) (s : LazyStream (ChunkIter ρ)) (st : PState σ F),
    partsLoop C (S.limits a c) H fuel64 sep fuel s st = partsLoop C (S.limits b d) H fuel64 sep fuel s st ∨
    ∃ e, (partsLoop C (S.limits a c) H fuel64 sep fuel s st).1 = .error e ∧ LimitRefusal e := by
  intro fuel
  induction fuel with
  | zero => intro s st; exact .inl rfl
  | succ fuel ih =>
    intro s st
    unfold partsLoop
    rcases hp : nextPart s sep with ⟨(e | (_ | sub)), s1⟩
    · exact .inl rfl
    · exact .inl rfl
    · have hsub : sub.length = none := by
        unfold nextPart at hp
        split at hp <;> simp at hp
        rw [← hp.1]; rfl
      simp only
      have hlen := parseBoundaryStream_length C sub 1024
      generalize parseBoundaryStream C sub 1024 = z at hlen ⊢
      rcases z with ⟨(e | ⟨t, md⟩), sub1⟩
      · exact .inl rfl
      · simp only at hlen ⊢
        rcases handlePart_raise C S a b c d hab hcd H fuel64 t md sub1 (hlen.trans hsub) st with h | ⟨e, h, he⟩
        · rw [h]
          rcases handlePart C (S.limits b d) H fuel64 t md sub1 st with ⟨(e | _), sub2, st2⟩
          · exact .inl rfl
          · exact ih _ _
        · right
          rcases hx : handlePart C (S.limits a c) H fuel64 t md sub1 st with ⟨(e' | _), sub2, st2⟩
          · rw [hx] at h; exact ⟨e, h, he⟩
          · rw [hx] at h; simp at h

theorem textPartsLoop_raise (C : Codecs) (S : Settings) (a b c d : Option Int) (hab : Allows a b) (hcd : Allows c d)
    (H : HandlerOps ρ σ F) (fuel64 : Nat) (sep : Bytes) :
    ∀ (fuel : Nat) (s : LazyStream (ChunkIter ρ)) (st : PState σ F),
    textPartsLoop C (S.limits a c) H fuel64 sep fuel s st = textPartsLoop C (S.limits b d) H fuel64 sep fuel s st ∨
    ∃ e, (textPartsLoop C (S.limits a c) H fuel64 sep fuel s st).1 = .error e ∧ LimitRefusal e := by
  intro fuel
  induction fuel with
  | zero => intro s st; exact .inl rfl
  | succ fuel ih =>
    intro s st
    unfold textPartsLoop
    rcases hp : nextTextPart s sep with ⟨(e | (_ | sub)), s1⟩
    · exact .inl rfl
    · exact .inl rfl
    · have hsub : sub.length = none := by
        unfold nextTextPart at hp
        split at hp <;> simp at hp
        rw [← hp.1]; rfl
      simp only
      have hlen := parseBoundaryStream_length C sub 1024
      generalize parseBoundaryStream C sub 1024 = z at hlen ⊢
      rcases z with ⟨(e | ⟨t, md⟩), sub1⟩
      · exact .inl rfl
      · simp only at hlen ⊢
        rcases handlePart_raise C S a b c d hab hcd H fuel64 t md sub1 (hlen.trans hsub) st with h | ⟨e, h, he⟩
        · rw [h]
          rcases handlePart C (S.limits b d) H fuel64 t md sub1 st with ⟨(e | _), sub2, st2⟩
          · exact .inl rfl
          · exact ih _ _
        · right
          rcases hx : handlePart C (S.limits a c) H fuel64 t md sub1 st with ⟨(e' | _), sub2, st2⟩
          · rw [hx] at h; exact ⟨e, h, he⟩
          · rw [hx] at h; simp at h

omit [Producer ρ] in
theorem rawInputLoop_limits {H : HandlerOps ρ σ F} (hH : IgnoresLimits H) (S : Settings) (a c : Option Int) (cl : Nat)
    (bd : Bytes) : ∀ (is : List Nat) (s : LazyStream ρ) (w : σ),
    rawInputLoop H ⟨cl, bd, S.limits a c⟩ is s w = rawInputLoop H ⟨cl, bd, S⟩ is s w := by
  intro is
  induction is with
  | nil => intro s w; rfl
  | cons i is ih =>
    intro s w
    unfold rawInputLoop
    have := hH i cl bd S a c s w
    simp only [Settings.limits]
    rw [this]
    rcases H.rawInput i ⟨cl, bd, S⟩ s w with ⟨(e | (_ | r)), s1, w1⟩
    · rfl
    · exact ih _ _
    · rfl

omit [Producer ρ] in
theorem emptyQueryDict_raise (C : Codecs) (S : Settings) (a b c d : Option Int) (hcd : Allows c d) :
    emptyQueryDict C (S.limits a c) = emptyQueryDict C (S.limits b d) ∨
    emptyQueryDict C (S.limits a c) = .error .tooManyFieldsSent := by
  have key : (if c.any (· < (0 : Int)) = true then (.error .tooManyFieldsSent : Except Exc Unit) else .ok ()) =
      (if d.any (· < (0 : Int)) = true then .error .tooManyFieldsSent else .ok ()) ∨
      (if c.any (· < (0 : Int)) = true then (.error .tooManyFieldsSent : Except Exc Unit) else .ok ()) =
        .error .tooManyFieldsSent := by
    by_cases h : c.any (· < (0 : Int)) = true
    · right; rw [if_pos h]
    · left
      rw [if_neg h, if_neg]
      intro hd
      apply h
      cases d with
      | none => simp at hd
      | some m =>
        cases c with
        | none => exact hcd.elim
        | some n =>
          have : n ≤ m := hcd
          simp only [Option.any_some, decide_eq_true_eq] at hd ⊢
          omega
  unfold emptyQueryDict
  simp only [Settings.limits]
  split
  · split
    · exact key
    · exact .inl rfl
  · exact key

/-- **C143** (multipart).  Under higher limits multipart parsing does exactly the same - result, position of the stream
and state of the handlers - unless the lower limits refuse the body.  For every stream, every body, every kind of
boundary and all handlers that do not look at the limits. -/
theorem C143_multipart (C : Codecs) (S : Settings) (b d : Option Int) (hb : Allows S.dataMaxMemory b)
    (hd : Allows S.maxFields d) (H : HandlerOps ρ σ F) (hH : IgnoresLimits H) (fuel64 : Nat) (text : Bool)
    (m : MultiPart) (input : LazyStream ρ) (w : σ) :
    m.run C { S with dataMaxMemory := b, maxFields := d } H fuel64 text input w = m.run C S H fuel64 text input w ∨
    ∃ e, (m.run C S H fuel64 text input w).1 = .error e ∧ LimitRefusal e := by
  obtain ⟨a, c, rfl, rfl⟩ : ∃ a c, S.dataMaxMemory = a ∧ S.maxFields = c := ⟨_, _, rfl, rfl⟩
  suffices h : m.run C (S.limits S.dataMaxMemory S.maxFields) H fuel64 text input w =
      m.run C (S.limits b d) H fuel64 text input w ∨
      ∃ e, (m.run C (S.limits S.dataMaxMemory S.maxFields) H fuel64 text input w).1 = .error e ∧ LimitRefusal e by
    rcases h with h | h
    · exact .inl h.symm
    · exact .inr h
  generalize S.dataMaxMemory = a at hb ⊢
  generalize S.maxFields = c at hd ⊢
  have hq := emptyQueryDict_raise C S a b c d hd
  unfold MultiPart.run
  cases text with
  | true =>
    simp only [if_true, MultiPart.parseText, rawInputLoop_limits hH]
    by_cases h0 : m.contentLength = 0
    · rw [if_pos h0, if_pos h0]
      rcases hq with hq | hq
      · left; rw [hq]
      · right; rw [hq]; exact ⟨_, rfl, by simp [LimitRefusal]⟩
    · rw [if_neg h0, if_neg h0]
      rcases rawInputLoop H ⟨m.contentLength, m.boundary, S⟩ (List.range H.count) input w with ⟨(e | (_ | r)), s1, w1⟩
      · exact .inl rfl
      · simp only
        rcases hq with hq | hq
        · rw [hq]
          cases emptyQueryDict C (S.limits b d) with
          | error e => exact .inl rfl
          | ok _ =>
            simp only
            rcases textPartsLoop_raise C S a b c d hb hd H fuel64 (b!"--" ++ m.boundary)
              ((LazyStream.mk' (⟨s1, m.chunkSize⟩ : ChunkIter ρ)).size + 1) (LazyStream.mk' ⟨s1, m.chunkSize⟩)
              { world := w1, counters := List.replicate H.count 0 } with h | ⟨e, h, he⟩
            · left; rw [h]
            · right
              refine ⟨e, ?_, he⟩
              rcases hx : textPartsLoop C (S.limits a c) H fuel64 (b!"--" ++ m.boundary)
                ((LazyStream.mk' (⟨s1, m.chunkSize⟩ : ChunkIter ρ)).size + 1) (LazyStream.mk' ⟨s1, m.chunkSize⟩)
                { world := w1, counters := List.replicate H.count 0 } with ⟨(e' | _), body, st⟩
              · rw [hx] at h
                simp only [Except.error.injEq] at h
                subst h
                simp only [LimitRefusal, List.mem_cons, List.not_mem_nil, or_false] at he
                rcases he with rfl | rfl | rfl | rfl | rfl <;> rfl
              · rw [hx] at h; simp at h
        · right; rw [hq]; exact ⟨_, rfl, by simp [LimitRefusal]⟩
      · exact .inl rfl
  | false =>
    simp only [Bool.false_eq_true, if_false, MultiPart.parse, rawInputLoop_limits hH]
    by_cases h0 : m.contentLength = 0
    · rw [if_pos h0, if_pos h0]
      rcases hq with hq | hq
      · left; rw [hq]
      · right; rw [hq]; exact ⟨_, rfl, by simp [LimitRefusal]⟩
    · rw [if_neg h0, if_neg h0]
      rcases rawInputLoop H ⟨m.contentLength, m.boundary, S⟩ (List.range H.count) input w with ⟨(e | (_ | r)), s1, w1⟩
      · exact .inl rfl
      · simp only
        rcases hq with hq | hq
        · rw [hq]
          cases emptyQueryDict C (S.limits b d) with
          | error e => exact .inl rfl
          | ok _ =>
            simp only
            rcases partsLoop_raise C S a b c d hb hd H fuel64 (b!"--" ++ m.boundary)
              ((LazyStream.mk' (⟨s1, m.chunkSize⟩ : ChunkIter ρ)).size + 1) (LazyStream.mk' ⟨s1, m.chunkSize⟩)
              { world := w1, counters := List.replicate H.count 0 } with h | ⟨e, h, he⟩
            · left; rw [h]
            · right
              refine ⟨e, ?_, he⟩
              rcases hx : partsLoop C (S.limits a c) H fuel64 (b!"--" ++ m.boundary)
                ((LazyStream.mk' (⟨s1, m.chunkSize⟩ : ChunkIter ρ)).size + 1) (LazyStream.mk' ⟨s1, m.chunkSize⟩)
                { world := w1, counters := List.replicate H.count 0 } with ⟨(e' | _), body, st⟩
              · rw [hx] at h
                simp only [Except.error.injEq] at h
                subst h
                simp only [LimitRefusal, List.mem_cons, List.not_mem_nil, or_false] at he
                rcases he with rfl | rfl | rfl | rfl | rfl <;> rfl
              · rw [hx] at h; simp at h
        · right; rw [hq]; exact ⟨_, rfl, by simp [LimitRefusal]⟩
      · exact .inl rfl

/-- So what is accepted stays accepted, with the same fields and files. -/
theorem C143_accepted (C : Codecs) (S : Settings) (b d : Option Int) (hb : Allows S.dataMaxMemory b)
    (hd : Allows S.maxFields d) (H : HandlerOps ρ σ F) (hH : IgnoresLimits H) (fuel64 : Nat) (text : Bool)
    (m : MultiPart) (input : LazyStream ρ) (w : σ) {post files s' w'}
    (h : m.run C S H fuel64 text input w = (.ok (post, files), s', w')) :
    m.run C { S with dataMaxMemory := b, maxFields := d } H fuel64 text input w = (.ok (post, files), s', w') := by
  rcases C143_multipart C S b d hb hd H hH fuel64 text m input w with h1 | ⟨e, h1, _⟩
  · rw [h1, h]
  · rw [h] at h1; simp at h1

omit [Producer ρ] in
/-- The upload handlers of the library do not look at the limits. -/
theorem builtinOps_ignoresLimits (ρ : Type) (os : Os) (n : Nat) : IgnoresLimits (builtinOps ρ os n) := by
  intro i cl bd S n1 n2 s w
  have : ∀ b : Builtin, b.rawInput ⟨cl, bd, { S with dataMaxMemory := n1, maxFields := n2 }⟩ =
      b.rawInput ⟨cl, bd, S⟩ := by
    intro b; cases b <;> rfl
  simp only [builtinOps, this]

/-! ## Whole requests -/

theorem queryDict_raise {C : Codecs} {S : Settings} {a b c d : Option Int} (hcd : Allows c d) (hc : c ≠ some 0)
    {qs : Option PyStr} {mu : Bool} {q : QDict} (h : queryDict C (S.limits a c) qs mu = .ok q) :
    queryDict C (S.limits b d) qs mu = .ok q := by
  unfold queryDict at h ⊢
  rw [show queryText C (S.limits b d) qs = queryText C (S.limits a c) qs from rfl]
  cases hq : queryText C (S.limits a c) qs with
  | error e => rw [hq] at h; simp at h
  | ok u =>
    rw [hq] at h
    simp only [Settings.limits] at h ⊢
    suffices hs : ∀ ps, limitedParseQsl C u true S.defaultCharset c = .ok ps →
        limitedParseQsl C u true S.defaultCharset d = .ok ps by
      cases hl : limitedParseQsl C u true S.defaultCharset c with
      | error e => rw [hl] at h; simp at h
      | ok ps => rw [hl] at h; rw [hs ps hl]; exact h
    intro ps hps
    cases c with
    | none =>
      cases d with
      | none => exact hps
      | some m => exact hcd.elim
    | some n =>
      by_cases hneg : n < 0
      · rw [C51_negative C u true _ n hneg] at hps; simp at hps
      · have h0 : n ≠ 0 := fun h => hc (by rw [h])
        obtain ⟨k, rfl⟩ := Int.eq_ofNat_of_zero_le (show 0 ≤ n by omega)
        obtain ⟨l1, l2, _⟩ := C51_limit C u true S.defaultCharset k (by omega)
        have hk : numPieces u ≤ k := by
          by_contra hx
          rw [show ((k : Nat) : Int) = Int.ofNat k from rfl] at l1
          have := l1 (by omega)
          rw [show some (Int.ofNat k) = some ((k : Nat) : Int) from rfl] at this
          rw [hps] at this; simp at this
        have e1 := l2 hk
        rw [hps] at e1
        cases d with
        | none => exact e1.symm
        | some m =>
          have hm : (k : Int) ≤ m := hcd
          obtain ⟨k', rfl⟩ := Int.eq_ofNat_of_zero_le (show 0 ≤ m by omega)
          have := (C51_limit C u true S.defaultCharset k' (by omega)).2.1 (by omega)
          exact this.trans e1.symm

theorem withinLimit_raise {a b : Option Int} (hab : Allows a b) (hb : b = none → a = none) {n : Nat}
    (h : withinLimit a n = true) : withinLimit b n = true := by
  cases b with
  | none => rw [hb rfl] at h; exact h
  | some m =>
    cases a with
    | none => exact hab.elim
    | some k =>
      have : k ≤ m := hab
      simp only [withinLimit, Option.any_some, decide_eq_true_eq] at h ⊢
      omega

theorem bodyLoop_raise {a b : Option Int} (hab : Allows a b) (hb : b = none → a = none) :
    ∀ (fuel : Nat) (acc chunk : Bytes) (n : Nat) (s : LazyStream ρ) {x s'},
    bodyLoop a fuel acc chunk n s = (.ok x, s') → bodyLoop b fuel acc chunk n s = (.ok x, s') := by
  intro fuel
  induction fuel with
  | zero => intro acc chunk n s x s' h; simp [bodyLoop] at h
  | succ fuel ih =>
    intro acc chunk n s x s' h
    unfold bodyLoop at h ⊢
    cases hw : withinLimit a n with
    | false => rw [hw] at h; simp at h
    | true =>
      rw [hw] at h
      rw [withinLimit_raise hab hb hw]
      by_cases hc : chunk = []
      · simp only [hc, ne_eq, not_true_eq_false, and_false, if_false, Bool.true_eq_false] at h ⊢
        exact h
      · simp only [ne_eq, hc, not_false_eq_true, and_self, if_true] at h ⊢
        rcases hr : s.read (some 65536) with ⟨(e | c), s1⟩
        · rw [hr] at h; simp at h
        · rw [hr] at h
          exact ih _ _ _ _ h

theorem bodyCore_raise {S : Settings} {a b c d : Option Int} (hab : Allows a b) (hb : b = none → a = none)
    {r : Req ρ σ F} {x r'} (h : bodyCore (S.limits a c) r = (.ok x, r')) :
    bodyCore (S.limits b d) r = (.ok x, r') := by
  unfold bodyCore at h ⊢
  split at h
  · simp at h
  · rename_i h1
    rw [if_neg h1]
    split at h
    · simp at h
    · rename_i h2
      rw [if_neg h2]
      cases hbd : r.body_ with
      | some y => rw [hbd] at h; exact h
      | none =>
        rw [hbd] at h
        simp only [readBody] at h ⊢
        rcases hr : r.stream.read (some 65536) with ⟨(e | ch), s1⟩
        · rw [hr] at h; simp at h
        · rw [hr] at h
          simp only at h ⊢
          rcases hl : bodyLoop (S.limits a c).dataMaxMemory (s1.size + 2) [] ch ch.length s1 with ⟨(e | y), s2⟩
          · rw [hl] at h; simp at h
          · rw [hl] at h
            rw [show bodyLoop (S.limits b d).dataMaxMemory (s1.size + 2) [] ch ch.length s1 = (.ok y, s2) from
              bodyLoop_raise hab hb _ _ _ _ _ hl]
            exact h

omit [Producer ρ] in
theorem applyHeader_raise {E : Env ρ σ F} {S : Settings} {a b c d : Option Int} (hcd : Allows c d) (hc : c ≠ some 0)
    {header : Bytes} {r : Req ρ σ F} {T r'} (h : applyHeader E header (S.limits a c) r = (.ok (), T, r')) :
    ∃ T0 : Settings, T = T0.limits a c ∧ applyHeader E header (S.limits b d) r = (.ok (), T0.limits b d, r') := by
  unfold applyHeader at h ⊢
  cases h1 : parseRequestHeaders (header ++ b!"\r\n") with
  | error e => rw [h1] at h; simp at h
  | ok lh =>
    obtain ⟨line, hs⟩ := lh
    rw [h1] at h
    simp only at h ⊢
    cases h2 : parseRequestLine E.up line with
    | error e => rw [h2] at h; simp at h
    | ok l =>
      rw [h2] at h
      simp only at h ⊢
      cases h3 : hostText l hs with
      | error e => rw [h3] at h; simp at h
      | ok hh =>
        obtain ⟨host, hs2⟩ := hh
        rw [h3] at h
        simp only at h ⊢
        have hq : ∀ (T1 : Settings) (r1 : Req ρ σ F), applyQuery E.C l.query hs2 (T1.limits a c) r1 = (.ok (), T, r') →
            ∃ T0 : Settings, T = T0.limits a c ∧
              applyQuery E.C l.query hs2 (T1.limits b d) r1 = (.ok (), T0.limits b d, r') := by
          intro T1 r1 hx
          unfold applyQuery at hx ⊢
          cases h4 : r1.info with
          | none => rw [h4] at hx; simp at hx
          | some m =>
            rw [h4] at hx
            simp only at hx ⊢
            by_cases hqe : l.query = []
            · simp only [hqe, ne_eq, not_true_eq_false, if_false] at hx ⊢
              cases h5 : queryDict E.C (T1.limits a c) none true with
              | error e => rw [h5] at hx; simp at hx
              | ok q =>
                rw [h5] at hx
                rw [queryDict_raise (b := b) hcd hc h5]
                simp only [Prod.mk.injEq, true_and] at hx ⊢
                exact ⟨T1, hx.1.symm, rfl, hx.2⟩
            · simp only [ne_eq, hqe, not_false_eq_true, if_true] at hx ⊢
              cases h5 : queryDict E.C (T1.limits a c) (some (.b l.query)) false with
              | error e => rw [h5] at hx; simp at hx
              | ok q =>
                rw [h5] at hx
                rw [queryDict_raise (b := b) hcd hc h5]
                simp only [Prod.mk.injEq, true_and] at hx ⊢
                exact ⟨T1, hx.1.symm, rfl, hx.2⟩
        unfold applyContentType at h ⊢
        cases h4 : hs2.get? b!"Content-Type" with
        | none =>
          rw [h4] at h
          exact hq S _ h
        | some vs =>
          rw [h4] at h
          simp only at h ⊢
          cases h5 : parseHeader E.C (vs.getLast?.getD []) with
          | error e => rw [h5] at h; simp at h
          | ok cp =>
            obtain ⟨ct, params⟩ := cp
            rw [h5] at h
            simp only at h ⊢
            cases h6 : params.get? b!"charset" with
            | none =>
              rw [h6] at h
              exact hq S _ h
            | some v =>
              rw [h6] at h
              exact hq { S with defaultCharset := charsetName v } _ h

theorem parseRequestHeader_raise {E : Env ρ σ F} {S : Settings} {a b c d : Option Int} (hcd : Allows c d)
    (hc : c ≠ some 0) {r : Req ρ σ F} {T r'} (h : parseRequestHeader E (S.limits a c) r = (.ok (), T, r')) :
    ∃ T0 : Settings, T = T0.limits a c ∧ parseRequestHeader E (S.limits b d) r = (.ok (), T0.limits b d, r') := by
  unfold parseRequestHeader at h ⊢
  split at h
  · rename_i hp
    rw [if_pos hp]
    simp only [Prod.mk.injEq, true_and] at h
    exact ⟨S, h.1.symm, by rw [h.2]⟩
  · rename_i hp
    rw [if_neg hp]
    rw [show (S.limits b d).maxHeaderSize = (S.limits a c).maxHeaderSize from rfl]
    generalize headerLoop (S.limits a c).maxHeaderSize (r.stream.size + 2) [] false r.stream = z at h ⊢
    rcases z with ⟨(e | ⟨header, rest⟩), s1, st⟩
    · simp at h
    · simp only at h ⊢
      generalize s1.unget rest = z at h ⊢
      rcases z with ⟨(e | _), s2⟩
      · simp at h
      · exact applyHeader_raise hcd hc h

theorem parseByType_raise {E : Env ρ σ F} (hE : ∀ w H w', E.load w = (.ok H, w') → IgnoresLimits H)
    {H : HandlerOps ρ σ F} (hH : IgnoresLimits H) {S : Settings}
    {a b c d : Option Int} (hab : Allows a b) (hb : b = none → a = none) (hcd : Allows c d) (hc : c ≠ some 0)
    {r : Req ρ σ F} {w : σ} {r' w'} (h : parseByType E (S.limits a c) H r w = (.ok (), r', w')) :
    parseByType E (S.limits b d) H r w = (.ok (), r', w') := by
  unfold parseByType at h ⊢
  cases h1 : r.contentType with
  | none => rw [h1] at h; simp at h
  | some ct =>
    rw [h1] at h
    simp only at h ⊢
    split at h
    · rename_i hm
      rw [if_pos hm]
      have key : ∀ p f r1 w1, parseFileUpload E (S.limits a c) H r w = (.ok (p, f), r1, w1) →
          parseFileUpload E (S.limits b d) H r w = (.ok (p, f), r1, w1) := by
        intro p f r1 w1 hx
        unfold parseFileUpload at hx ⊢
        cases h2 : r.info.bind (·.headers) with
        | none => rw [h2] at hx; simp at hx
        | some hd =>
          rw [h2] at hx
          simp only at hx ⊢
          have hH' : ∀ H' w', (if H.count = 0 then E.load w else (.ok H, w)) = (.ok H', w') → IgnoresLimits H' := by
            intro H' w' hy
            split at hy
            · exact hE _ _ _ hy
            · simp only [Prod.mk.injEq, Except.ok.injEq] at hy
              rw [← hy.1]; exact hH
          rcases h3 : (if H.count = 0 then E.load w else (.ok H, w)) with ⟨(e | H'), w2⟩
          · rw [h3] at hx; simp at hx
          · rw [h3] at hx
            simp only at hx ⊢
            cases h4 : MultiPart.create E.C H' ((hd.get? b!"Content-Type").bind List.getLast?)
                ((hd.get? b!"Content-Length").bind List.getLast?) with
            | error e => rw [h4] at hx; simp at hx
            | ok m =>
              rw [h4] at hx
              simp only at hx ⊢
              rcases h5 : m.run E.C (S.limits a c) H' E.fuel64
                (unicodeBoundary E.C ((hd.get? b!"Content-Type").bind List.getLast?)) r.stream w2 with ⟨(e | ⟨p1, f1⟩), s3, w3⟩
              · rw [h5] at hx; simp at hx
              · rw [h5] at hx
                have := C143_accepted E.C (S.limits a c) b d hab hcd H' (hH' _ _ h3) _ _ m _ _ h5
                rw [show S.limits b d = { S.limits a c with dataMaxMemory := b, maxFields := d } from rfl, this]
                exact hx
      rcases h2 : parseFileUpload E (S.limits a c) H r w with ⟨(e | ⟨p, f⟩), r1, w1⟩
      · rw [h2] at h
        cases e <;> simp at h
      · rw [h2] at h
        rw [key _ _ _ _ h2]
        exact h
    · rename_i hm
      rw [if_neg hm]
      split at h
      · rename_i hu
        rw [if_pos hu]
        rcases h2 : bodyCore (S.limits a c) r with ⟨(e | x), r1⟩
        · rw [h2] at h; simp at h
        · rw [h2] at h
          rw [bodyCore_raise hab hb h2]
          simp only at h ⊢
          cases h3 : queryDict E.C (S.limits a c) (some x) false with
          | error e => rw [h3] at h; simp at h
          | ok q =>
            rw [h3] at h
            rw [queryDict_raise (b := b) hcd hc h3]
            exact h
      · rename_i hu
        rw [if_neg hu]
        cases h3 : queryDict E.C (S.limits a c) none false with
        | error e => rw [h3] at h; simp at h
        | ok q =>
          rw [h3] at h
          rw [queryDict_raise (b := b) hcd hc h3]
          exact h

theorem parseRequestBody_raise {E : Env ρ σ F} (hE : ∀ w H w', E.load w = (.ok H, w') → IgnoresLimits H)
    {S : Settings} {a b c d : Option Int} (hab : Allows a b) (hb : b = none → a = none) (hcd : Allows c d)
    (hc : c ≠ some 0) {r : Req ρ σ F} {w : σ} {r' w'}
    (h : parseRequestBody E (S.limits a c) r w = (.ok (), r', w')) :
    parseRequestBody E (S.limits b d) r w = (.ok (), r', w') := by
  unfold parseRequestBody at h ⊢
  split at h
  · rename_i hp
    rw [if_pos hp]; exact h
  · rename_i hp
    rw [if_neg hp]
    rcases h1 : E.load w with ⟨(e | H), w1⟩
    · rw [h1] at h; simp at h
    · rw [h1] at h
      have hH := hE _ _ _ h1
      simp only at h ⊢
      split at h
      · simp at h
      · rename_i hq
        rw [if_neg hq]
        unfold parseBodyStream at h ⊢
        simp only at h ⊢
        rcases h2 : r.stream.read (some 1) with ⟨(e | data), s1⟩
        · rw [h2] at h; simp at h
        · rw [h2] at h
          simp only at h ⊢
          by_cases hd : data = []
          · rw [if_pos hd] at h ⊢
            cases h3 : queryDict E.C (S.limits a c) none false with
            | error e => rw [h3] at h; simp at h
            | ok q =>
              rw [h3] at h
              rw [queryDict_raise (b := b) hcd hc h3]
              exact h
          · rw [if_neg hd] at h ⊢
            rcases h3 : s1.unget data with ⟨(e | _), s2⟩
            · rw [h3] at h; simp at h
            · rw [h3] at h
              simp only at h ⊢
              rcases h4 : parseByType E (S.limits a c) H
                { { { r with handlers := some H } with stream := s1 } with stream := s2 } w1 with ⟨(e | _), r1, w2⟩
              · rw [h4] at h; simp at h
              · rw [h4] at h
                rw [parseByType_raise hE hH hab hb hcd hc h4]
                simp only at h ⊢
                have key : ∀ r2, finishBody E.C (S.limits a c) r1 = (.ok (), r2) →
                    finishBody E.C (S.limits b d) r1 = (.ok (), r2) := by
                  intro r2 hx
                  unfold finishBody at hx ⊢
                  rcases h5 : bodyCore (S.limits a c) r1 with ⟨(e | x), r3⟩
                  · rw [h5] at hx; simp at hx
                  · rw [h5] at hx
                    rw [bodyCore_raise hab hb h5]
                    exact hx
                rcases h5 : finishBody E.C (S.limits a c) r1 with ⟨(e | _), r2⟩
                · rw [h5] at h; simp at h
                · rw [h5] at h
                  rw [key _ h5]
                  exact h

/-- **C143** (whole requests, partial).  A request that is accepted stays accepted under higher limits, with the same
attributes, if the limit on fields is not `0` before and the memory limit stays a number.  For every stream and state
of the request. -/
theorem C143_request_partial (E : Env ρ σ F) (hE : ∀ w H w', E.load w = (.ok H, w') → IgnoresLimits H) (S : Settings)
    (b d : Option Int) (hb : Allows S.dataMaxMemory b) (hb0 : b = none → S.dataMaxMemory = none)
    (hd : Allows S.maxFields d) (hd0 : S.maxFields ≠ some 0) (r : Req ρ σ F) (w : σ) {T r' w'}
    (h : parseRequest E S r w = (.ok (), T, r', w')) :
    parseRequest E { S with dataMaxMemory := b, maxFields := d } r w =
      (.ok (), { T with dataMaxMemory := b, maxFields := d }, r', w') := by
  rw [show S = S.limits S.dataMaxMemory S.maxFields from rfl] at h
  show parseRequest E (S.limits b d) r w = (.ok (), T.limits b d, r', w')
  unfold parseRequest at h ⊢
  rcases h1 : parseRequestHeader E (S.limits S.dataMaxMemory S.maxFields) r with ⟨(e | _), T1, r1⟩
  · rw [h1] at h; simp at h
  · rw [h1] at h
    simp only at h
    obtain ⟨T0, rfl, h2⟩ := parseRequestHeader_raise (b := b) hd hd0 h1
    rw [h2]
    simp only
    rcases h3 : parseRequestBody E (T0.limits S.dataMaxMemory S.maxFields) r1 w with ⟨(e | _), r2, w2⟩
    · rw [h3] at h; simp at h
    · rw [h3] at h
      rw [parseRequestBody_raise hE hb hb0 hd hd0 h3]
      simp only [Prod.mk.injEq, true_and] at h ⊢
      exact ⟨by rw [← h.1]; rfl, h.2⟩

end

/-- **C143 is false** of whole requests.  A query string of two fields is accepted with `0` fields allowed and refused
with `1`.  A body of one byte is accepted with ten bytes allowed and refused without a limit. -/
theorem C143_refuted :
    (let p := fun n => (parseRequest bareEnv { maxFields := some n }
      (reqOf [b!"GET http://h/?a=1&b=2 HTTP/1.1\r\nHost: h\r\n\r\n"]) ()).1.toOption
     p 0 = some () ∧ p 1 = none) ∧
    (let p := fun n => (parseRequest bareEnv { dataMaxMemory := n }
      (reqOf [b!"POST http://h/ HTTP/1.1\r\nContent-Type: text/plain\r\n\r\nx"]) ()).1.toOption
     p (some 10) = some () ∧ p none = none) := by decide +kernel

/-- A request that is accepted under the lower limits, and so is under all higher ones. -/
example (m n : Int) (hm : 10 ≤ m) (hn : 2 ≤ n) :
    (parseRequest bareEnv { dataMaxMemory := some m, maxFields := some n }
      (reqOf [b!"POST http://h/?a=1&b=2 HTTP/1.1\r\nContent-Type: application/x-www-form-urlencoded\r\n\r\nc=3&d=4"]) ()).1
      = .ok () := by
  have h : (parseRequest bareEnv { dataMaxMemory := some 10, maxFields := some 2 }
      (reqOf [b!"POST http://h/?a=1&b=2 HTTP/1.1\r\nContent-Type: application/x-www-form-urlencoded\r\n\r\nc=3&d=4"]) ()).1
      = .ok () := by rfl
  rcases hx : parseRequest bareEnv { dataMaxMemory := some 10, maxFields := some 2 }
      (reqOf [b!"POST http://h/?a=1&b=2 HTTP/1.1\r\nContent-Type: application/x-www-form-urlencoded\r\n\r\nc=3&d=4"]) ()
      with ⟨x, T, r', w'⟩
  rw [hx] at h
  subst h
  have := C143_request_partial bareEnv (by intro w H w' h; simp [bareEnv] at h; subst h; intro i cl bd S n1 n2 s w; rfl)
    { dataMaxMemory := some 10, maxFields := some 2 } (some m) (some n) hm (by simp) hn (by simp) _ _ hx
  rw [show ({ dataMaxMemory := some m, maxFields := some n } : Settings) =
    { ({ dataMaxMemory := some 10, maxFields := some 2 } : Settings) with
      dataMaxMemory := some m, maxFields := some n } from rfl, this]

/-- A form with a field of three bytes needs six; it is accepted with every limit from six on, and with five it is
refused. -/
example (n : Int) (hn : 6 ≤ n) :
    (let p := fun n => (MultiPart.run latin1 { dataMaxMemory := some n } (builtinOps Source goodOs 1) 0 false
      ⟨b!"~", 64, 1⟩ (LazyStream.mk' ⟨[b!"--~\r\nContent-Disposition: form-data; name=\"f\"\r\n\r\nabc\r\n--~--\r\n"]⟩)
      ⟨[.temp {}], []⟩).1.toOption.map (fun x => (items x.1).map (fun i => (i.1, i.2.data)))
     p n = some [(b!"f", b!"abc")] ∧ p 5 = none) := by
  refine ⟨?_, by decide +kernel⟩
  have h : (MultiPart.run latin1 { dataMaxMemory := some 6 } (builtinOps Source goodOs 1) 0 false
      ⟨b!"~", 64, 1⟩ (LazyStream.mk' ⟨[b!"--~\r\nContent-Disposition: form-data; name=\"f\"\r\n\r\nabc\r\n--~--\r\n"]⟩)
      ⟨[.temp {}], []⟩).1.toOption.map (fun x => (items x.1).map (fun i => (i.1, i.2.data))) =
      some [(b!"f", b!"abc")] := by decide +kernel
  rcases C143_multipart latin1 { dataMaxMemory := some 6 } (some n) (some 4096) hn (by show (4096 : Int) ≤ 4096; decide)
    (builtinOps Source goodOs 1) (builtinOps_ignoresLimits _ _ _) 0 false ⟨b!"~", 64, 1⟩
    (LazyStream.mk' ⟨[b!"--~\r\nContent-Disposition: form-data; name=\"f\"\r\n\r\nabc\r\n--~--\r\n"]⟩)
    ⟨[.temp {}], []⟩ with h1 | ⟨e, h1, _⟩
  · rw [← h1] at h
    exact h
  · rw [h1] at h
    simp [Except.toOption] at h

end Verif
