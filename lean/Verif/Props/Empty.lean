import Verif.Props.Reading
/-!
# What becomes of an empty file (C146)
-/

namespace Verif
open Spec

/-- A part that is a file with a name and without content. -/
def Spec.EmptyFile (t : ItemType) (md : MetaData) (content : Bytes) : Prop :=
  ∃ d n name fn, partName md = some (d, n) ∧ forceText n.strip = .ok name ∧ t = .file ∧
    dispositionFileName d = .ok fn ∧ fn ≠ [] ∧ name ≠ [] ∧ FileData (transferEnc md) content []

/-- What a body means (`Spec.Reads`), with empty files: they are left out, or the first of them ends the
parsing (`fatal`). -/
inductive Spec.ReadsEmpty (C : Codecs) (S : Settings) (sep : Bytes) (fatal : Bool) :
    Bytes → Ghost → Except Exc Ghost → Prop where
  | done {g} : ReadsEmpty C S sep fatal [] g (.ok g)
  | rest {D g} : D ≠ [] → ¬ sep <:+: D → ¬ b!"\r\n\r\n" <:+: D → ReadsEmpty C S sep fatal D g (.ok g.close)
  | bad {D g e} : D ≠ [] → HeadErr C (cut sep D) e → ReadsEmpty C S sep fatal D g (.error e)
  | partErr {D g t md content e} : D ≠ [] → PartHead C (cut sep D) t md content →
      PartReads C S t md content ((cut sep D).length < 1024) g.close (.error e) →
      ReadsEmpty C S sep fatal D g (.error e)
  | part {D g g' t md content res} : D ≠ [] → PartHead C (cut sep D) t md content →
      PartReads C S t md content ((cut sep D).length < 1024) g.close (.ok g') →
      ReadsEmpty C S sep fatal (after sep D) g' res → ReadsEmpty C S sep fatal D g res
  /-- An empty file, with something after its separator, adds nothing. -/
  | empty {D g t md content res} : D ≠ [] → PartHead C (cut sep D) t md content → EmptyFile t md content →
      after sep D ≠ [] → fatal = false → ReadsEmpty C S sep fatal (after sep D) g.close res →
      ReadsEmpty C S sep fatal D g res
  /-- An empty file, with something after its separator whose header can be read, ends the parsing. -/
  | emptyFatal {D g t md content} : D ≠ [] → PartHead C (cut sep D) t md content → EmptyFile t md content →
      after sep D ≠ [] → fatal = true → (∀ e, ¬ HeadErr C (cut sep (after sep D)) e) →
      ReadsEmpty C S sep fatal D g (.error .attributeError)

/-- `Spec.ReadsEmpty` extends `Spec.Reads`. -/
theorem Spec.Reads.withEmpty {C : Codecs} {S : Settings} {sep : Bytes} {D : Bytes} {g : Ghost} {res : Except Exc Ghost}
    (h : Reads C S sep D g res) (fatal : Bool) : ReadsEmpty C S sep fatal D g res := by
  induction h with
  | done => exact .done
  | rest h1 h2 h3 => exact .rest h1 h2 h3
  | bad h1 h2 => exact .bad h1 h2
  | partErr h1 h2 h3 => exact .partErr h1 h2 h3
  | part h1 h2 h3 _ ih => exact .part h1 h2 h3 ih

section
variable {ρ σ F : Type} {H : HandlerOps ρ σ F} {Ready : σ → List (Bytes × F × Bytes) → Prop}
  {Busy : σ → List Nat → List (Bytes × F × Bytes) → Bytes → Bytes → Prop}

/-- A part is read from a state as from the state in which the open file is complete. -/
theorem PartRun.completed {C : Codecs} {S : Settings} {fuel64 : Nat} {t : ItemType} {md : MetaData} {content : Bytes}
    {st st1 st' : PState σ F} {b : Bool} {r : Except Exc Unit} (h : PartRun C S H fuel64 t md content st b r st')
    (h1 : completeOld H st = (.ok (), st1)) (h2 : completeOld H st1 = (.ok (), st1)) :
    PartRun C S H fuel64 t md content st1 b r st' := by
  cases h with
  | completeErr k => rw [h1] at k; cases k
  | skip k a => rw [h1] at k; cases k; exact .skip h2 a
  | nameErr k a b => rw [h1] at k; cases k; exact .nameErr h2 a b
  | tooMany k a b c d => rw [h1] at k; cases k; exact .tooMany h2 a b c d
  | negative k a b c d e => rw [h1] at k; cases k; exact .negative h2 a b c d e
  | field k a b c d e f g i => rw [h1] at k; cases k; exact .field h2 a b c d e f g i
  | fileNameErr k a b c d => rw [h1] at k; cases k; exact .fileNameErr h2 a b c d
  | noFileName k a b c d => rw [h1] at k; cases k; exact .noFileName h2 a b c d
  | file k a b c d e f => rw [h1] at k; cases k; exact .file h2 a b c d e f
  | fileSkip k a b c d e f g => rw [h1] at k; cases k; exact .fileSkip h2 a b c d e f g
  | fileErr k a b c d e f g => rw [h1] at k; cases k; exact .fileErr h2 a b c d e f g

theorem Parses.completed {C : Codecs} {S : Settings} {fuel64 : Nat} {sep D D' : Bytes} {st st1 st' : PState σ F}
    {r : Except Exc Unit} (h : Parses C S H fuel64 sep D st r D' st') (hD : D ≠ [])
    (h1 : completeOld H st = (.ok (), st1)) (h2 : completeOld H st1 = (.ok (), st1)) :
    ∃ st'', Parses C S H fuel64 sep D st1 r D' st'' ∧ (r = .ok () → st'' = st') := by
  cases h with
  | done => exact absurd rfl hD
  | headErr a b c => exact ⟨_, .headErr a b c, by intro h; cases h⟩
  | partErr a b c d => exact ⟨_, .partErr a b (c.completed h1 h2) d, by intro h; cases h⟩
  | part a b c d e f g => exact ⟨_, .part a b (c.completed h1 h2) d e f g, fun _ => rfl⟩

/-- What completing an empty file does: nothing, or it raises an `AttributeError` (`fatal`). -/
def Drops (H : HandlerOps ρ σ F) (Ready : σ → List (Bytes × F × Bytes) → Prop)
    (Busy : σ → List Nat → List (Bytes × F × Bytes) → Bytes → Bytes → Prop) (fatal : Bool) : Prop :=
  ∀ w cs done n, Busy w cs done n [] → ∃ w',
    if fatal then completeLoop H cs (List.range H.count) w = (.error .attributeError, w')
    else completeLoop H cs (List.range H.count) w = (.ok none, w') ∧ Ready w' done

theorem Abs.completed {st : PState σ F} {g : Ghost} (h : Abs Ready Busy st g) (hg : g.old = none) :
    completeOld H st = (.ok (), st) := by
  obtain ⟨m, _, _, h3⟩ := h.files
  rw [hg] at h3
  simp [completeOld, h3.1]

/-- After an empty file nothing has been added, and the file is open. -/
theorem Parses.empty_step {C : Codecs} {S : Settings} {sep : Bytes} {D : Bytes} {g : Ghost} {t : ItemType}
    {md : MetaData} {content : Bytes} (h1 : D ≠ []) (h2 : PartHead C (cut sep D) t md content)
    (h3 : EmptyFile t md content) (hs : Stores H Ready Busy) {fuel64 : Nat} {st st' : PState σ F}
    {r : Except Exc Unit} {D' : Bytes} (hf : D.length ≤ fuel64) (ha : Abs Ready Busy st g)
    (hp : Parses C S H fuel64 sep D st r D' st') :
    ∃ (st1 : PState σ F) (m : Made F) (w : σ) (cs : List Nat) (name fn : Bytes), Abs Ready Busy st1 g.close ∧ m.map Prod.fst = g.close.files ∧ st1.files = m.dict ∧
      name ≠ [] ∧ Busy w cs m.done fn [] ∧
      Parses C S H fuel64 sep (after sep D) { st1 with world := w, counters := cs, oldField := some name } r D' st' := by
  have hcl : (cut sep D).length ≤ D.length := (cut_prefix sep D).length_le
  obtain ⟨t', md', content', b, r1, D1, st1, e1, e2, e3, e4⟩ := hp.step_inv h1 h2.no_err
  obtain ⟨rfl, rfl, rfl⟩ := h2.unique e1
  obtain ⟨d, n, name, fn, a1, a2, a3, a4, a5, a6, a7⟩ := h3
  obtain ⟨st2, c1, c2⟩ := ha.complete hs
  obtain ⟨r0, cs, w, k1, k2⟩ := e2.file_inv c1 a1 a2 a3 a4 a5
  obtain ⟨m, m1, m2, m3⟩ := c2.files
  have m3 : Ready st2.world m.done := m3.2
  obtain ⟨rfl, hB⟩ := RecvRun.stores64 hs k1 (data := []) a7 (by have := h2.length (by rw [a3]; simp); omega) trivial m3
  rcases k2 with ⟨_, rfl, rfl, rfl⟩ | ⟨h, _⟩ | ⟨e, h, _⟩
  · rcases e4 with ⟨e, he, _⟩ | ⟨_, _, q2, q3⟩
    · cases he
    · rw [q2 (.inl rfl)] at q3
      exact ⟨st2, m, w, cs, name, fn, c2, m1, m2, a6, hB, q3⟩
  · cases h
  · cases h

theorem Parses.reads_empty {C : Codecs} {S : Settings} {sep : Bytes} {fatal : Bool} {D : Bytes} {g : Ghost}
    {res : Except Exc Ghost} (hD : ReadsEmpty C S sep fatal D g res) (hs : Stores H Ready Busy)
    (hd : Drops H Ready Busy fatal) {fuel64 : Nat} {st st' : PState σ F} {r : Except Exc Unit}
    {D' : Bytes} (hf : D.length ≤ fuel64) (ha : Abs Ready Busy st g)
    (hp : Parses C S H fuel64 sep D st r D' st') :
    PartOut Ready Busy True r st' res := by
  induction hD generalizing st st' with
  | done => exact Parses.reads .done hs hf ha hp
  | rest h1 h2 h3 => exact Parses.reads (.rest h1 h2 h3) hs hf ha hp
  | bad h1 h2 => exact Parses.reads (.bad h1 h2) hs hf ha hp
  | partErr h1 h2 h3 => exact Parses.reads (.partErr h1 h2 h3) hs hf ha hp
  | @part D g g1 t md content res h1 h2 h3 _ ih =>
    have hcl : (cut sep D).length ≤ D.length := (cut_prefix sep D).length_le
    have hal : (after sep D).length ≤ D.length := by
      unfold after; split <;> simp
    obtain ⟨t', md', content', b, r1, D1, st1, e1, e2, e3, e4⟩ := hp.step_inv h1 h2.no_err
    obtain ⟨rfl, rfl, rfl⟩ := h2.unique e1
    obtain ⟨rfl, j2, j3⟩ := PartRun.reads h3 hs (fun _ _ _ _ _ _ _ _ _ => trivial) (fun ht => by have := h2.length ht; omega) ha e2
    rcases e4 with ⟨e, he, he2, _⟩ | ⟨_, _, q2, q3⟩
    · simp at he
    · rw [q2 j2] at q3
      exact ih (by omega) j3 q3
  | @empty D g t md content res h1 h2 h3 h4 h5 _ ih =>
    have hal : (after sep D).length ≤ D.length := by
      unfold after; split <;> simp
    obtain ⟨st1, m, w, cs, name, fn, i1, i2, i3, i4, i5, i6⟩ := Parses.empty_step h1 h2 h3 hs hf ha hp
    subst h5
    obtain ⟨w', k1⟩ := hd _ _ _ _ i5
    simp only [Bool.false_eq_true, if_false] at k1
    obtain ⟨x, l, rfl⟩ := List.exists_cons_of_ne_nil i4
    have habs : Abs Ready Busy { st1 with world := w', counters := cs, oldField := none } g.close :=
      ⟨i1.post, i1.bytes, i1.keys, m, i2, i3, rfl, k1.2⟩
    obtain ⟨st'', q1, q2⟩ := i6.completed h4
      (st1 := { st1 with world := w', counters := cs, oldField := none })
      (by simp [completeOld, handleFileComplete, k1.1]) (habs.completed rfl)
    have := ih (by omega) habs q1
    cases res with
    | error e => exact this
    | ok g' =>
      obtain ⟨rfl, _, p3⟩ := this
      rw [q2 rfl] at p3
      exact ⟨rfl, trivial, p3⟩
  | @emptyFatal D g t md content h1 h2 h3 h4 h5 h6 =>
    obtain ⟨st1, m, w, cs, name, fn, i1, i2, i3, i4, i5, i6⟩ := Parses.empty_step h1 h2 h3 hs hf ha hp
    subst h5
    obtain ⟨w', k1⟩ := hd _ _ _ _ i5
    simp only [if_true] at k1
    obtain ⟨x, l, rfl⟩ := List.exists_cons_of_ne_nil i4
    have hc : completeOld H { st1 with world := w, counters := cs, oldField := some (x :: l) } =
        (.error .attributeError, { st1 with world := w', counters := cs, oldField := some (x :: l) }) := by
      simp [completeOld, handleFileComplete, k1]
    obtain ⟨t', md', content', b, r1, D1, st2, e1, e2, e3, e4⟩ := i6.step_inv h4 h6
    have : r1 = .error .attributeError := by
      cases e2 <;> simp_all
    subst this
    rcases e4 with ⟨e, he, he2, _⟩ | ⟨he, _⟩
    · cases he; exact he2
    · cases he

/-- Something that stays true of the world while files are stored. -/
theorem Stores.also (hs : Stores H Ready Busy) (I : σ → Prop)
    (h1 : ∀ w done a w', Ready w done → I w → newFiles H a (List.range H.count) w = (.ok (), w') → I w')
    (h2 : ∀ w cs done n d c cs' w', Busy w cs done n d → I w →
      feedChunk H (List.range H.count) c cs w = (.ok (), cs', w') → I w')
    (h3 : ∀ w cs done n d f w', Busy w cs done n d → d ≠ [] → I w →
      completeLoop H cs (List.range H.count) w = (.ok (some f), w') → I w')
    (h4 : ∀ w w', I w → uploadCompleteLoop H (List.range H.count) w = (.ok (), w') → I w') :
    Stores H (fun w done => Ready w done ∧ I w) (fun w cs done n d => Busy w cs done n d ∧ I w) where
  opens w done a ha hw := by
    obtain ⟨w', k1, k2⟩ := hs.opens w done a ha hw.1
    exact ⟨w', k1, k2, h1 _ _ _ _ hw.1 hw.2 k1⟩
  feeds w cs done n d c hw := by
    obtain ⟨cs', w', k1, k2⟩ := hs.feeds w cs done n d c hw.1
    exact ⟨cs', w', k1, k2, h2 _ _ _ _ _ _ _ _ hw.1 hw.2 k1⟩
  completes w cs done n d hw hd := by
    obtain ⟨f, w', k1, k2⟩ := hs.completes w cs done n d hw.1 hd
    exact ⟨f, w', k1, k2, h3 _ _ _ _ _ _ _ hw.1 hd hw.2 k1⟩
  finishes w done hw := by
    obtain ⟨w', k1, k2⟩ := hs.finishes w done hw.1
    exact ⟨w', k1, k2, h4 _ _ hw.2 k1⟩

theorem PartOut.forget {I : σ → Prop} {q : Prop} {r : Except Exc Unit} {st' : PState σ F} {res : Except Exc Ghost}
    (h : PartOut (fun w done => Ready w done ∧ I w) (fun w cs done n d => Busy w cs done n d ∧ I w) q r st' res) :
    PartOut Ready Busy q r st' res := by
  cases res with
  | error e => exact h
  | ok g =>
    obtain ⟨h1, h2, h3⟩ := h
    obtain ⟨m, k1, k2, k3⟩ := h3.files
    refine ⟨h1, h2, h3.post, h3.bytes, h3.keys, m, k1, k2, ?_⟩
    cases ho : g.old with
    | none => rw [ho] at k3; exact ⟨k3.1, k3.2.1⟩
    | some o => rw [ho] at k3; exact ⟨k3.1, k3.2.1, k3.2.2.1, k3.2.2.2.1⟩

end

/-! ### The built-in handlers -/

/-- The handler that takes files is the last one. -/
def LastTakes (N : Nat) (w : BWorld) : Prop := ∃ mid b, Handlers N w.hs mid b []

theorem Handlers.last {N : Nat} {hs mid mid' : List Builtin} {b b' : Builtin} {post : List Builtin}
    (h : Handlers N hs mid b post) (h' : Handlers N hs mid' b' []) : mid = mid' ∧ b = b' ∧ post = [] := by
  have e := h.split.symm.trans h'.split
  rcases List.append_eq_append_iff.1 e with ⟨l, h1, h2⟩ | ⟨l, h1, h2⟩
  · cases l with
    | nil =>
      simp only [List.nil_append, List.cons.injEq] at h2
      exact ⟨by simpa using h1.symm, h2.1, h2.2⟩
    | cons x l =>
      simp only [List.cons_append, List.cons.injEq] at h2
      exact absurd (h'.inactive b (by rw [h1, h2.1]; simp)).2 h.accepts.2
  · cases l with
    | nil =>
      simp only [List.nil_append, List.cons.injEq] at h2
      exact ⟨by simpa using h1, h2.1.symm, h2.2.symm⟩
    | cons x l => simp at h2

section
variable {ρ : Type} {os : Os} (hos : ∀ e, os.tempFile e = .ok ())

include hos in
theorem completeLoop_drops (N : Nat) (b b' : Builtin) (heap heap' : Heap) (f : Uploaded)
    (cs : List Nat) : ∀ (mid pre : List Builtin), (∀ x ∈ mid, x.Inactive) →
      b.fileComplete (cs.getD (pre.length + mid.length) 0) heap = (.ok (some f), b', heap') → f.size = 0 →
      completeLoop (builtinOps ρ os N) cs (List.range' pre.length (mid.length + 1))
          ⟨pre ++ mid ++ [b], heap⟩ = (.ok none, ⟨pre ++ mid ++ [b'], heap'⟩) := by
  intro mid
  induction mid with
  | nil =>
    intro pre _ hb hf
    rw [List.length_nil, Nat.zero_add, List.range'_succ, completeLoop]
    have e : (builtinOps ρ os N).fileComplete pre.length (cs.getD pre.length 0) ⟨pre ++ [] ++ [b], heap⟩ =
        (.ok (some f), ⟨pre ++ [b'], heap'⟩) := by
      simp only [builtinOps, List.append_nil]
      rw [BWorld.on_mid]
      simp only [List.length_nil, Nat.add_zero] at hb
      rw [hb]
    rw [e]
    simp [builtinOps, hf, completeLoop]
  | cons x mid ih =>
    intro pre hm hb hf
    rw [List.length_cons, List.range'_succ, completeLoop]
    have e : (builtinOps ρ os N).fileComplete pre.length (cs.getD pre.length 0) ⟨pre ++ (x :: mid) ++ [b], heap⟩ =
        (.ok none, ⟨pre ++ x :: (mid ++ [b]), heap⟩) := by
      simp only [builtinOps]
      rw [List.append_assoc, List.cons_append, BWorld.on_mid, Builtin.complete_inactive (hm x (by simp))]
    rw [e]
    have i1 := ih (pre ++ [x]) (fun y hy => hm y (by simp [hy])) (by
      rw [← hb]; congr 2; simp; omega) hf
    simp only [List.length_append, List.length_cons, List.length_nil, List.append_assoc, List.cons_append,
        List.nil_append] at i1
    simpa using i1

include hos in
theorem last_stores (N : Nat) : Stores (builtinOps ρ os N) (fun w done => BReady N w done ∧ LastTakes N w)
    (fun w cs done n d => BBusy N w cs done n d ∧ LastTakes N w) := by
  refine (builtin_stores (ρ := ρ) hos N).also (LastTakes N) ?_ ?_ ?_ ?_
  · rintro ⟨hs, heap⟩ done a w' - ⟨mid, b, hH⟩ h
    obtain ⟨mid', b', post', extra, h1, h2, h3, h4, h5, h6, h7⟩ :=
      newFiles_accept (ρ := ρ) hos a N b [] heap hH.accepts hH.init mid [] hH.inactive
    have hN : N = mid.length + 1 := by
      rw [← hH.count]; have := hH.split; simp only at this ⊢; rw [this]; simp
    have hs' := hH.split
    simp only at hs'
    subst hs'
    rw [List.length_nil, List.length_eq_zero_iff] at h3
    subst h3
    rw [List.range_eq_range'] at h
    change newFiles _ a (List.range' 0 N) _ = _ at h
    simp only [List.length_nil, Nat.add_zero, List.nil_append, ← hN] at h1
    rw [h1] at h
    cases h
    exact ⟨mid', b', rfl, by simp; omega, h4, h5, h6⟩
  · rintro ⟨hs, heap⟩ cs done n d c cs' w' ⟨hst, mid, b, post, r, hH, ho, hcell, hne, hlen, hcs⟩ ⟨mid2, b2, hH2⟩ h
    obtain ⟨rfl, rfl, rfl⟩ := hH.last hH2
    obtain ⟨b', heap', r', h1, h2, h3, h4, h5, h6⟩ := Builtin.receive_open hos c b heap n r d hH.accepts ho hcell
    have hN : N = mid.length + 1 := by
      rw [← hH.count]; have := hH.split; simp only at this ⊢; rw [this]; simp
    have hs' := hH.split
    simp only at hs'
    subst hs'
    obtain ⟨cs2, i1, i2, i3⟩ := feedChunk_accept (ρ := ρ) hos N b b' [] heap heap' c h1 mid [] cs
      (fun x hx => (hH.inactive x hx).2) (by simp; omega)
    rw [List.range_eq_range'] at h
    change feedChunk _ (List.range' 0 N) _ _ _ = _ at h
    simp only [List.length_nil, Nat.add_zero, List.nil_append, ← hN] at i1
    rw [i1] at h
    cases h
    exact ⟨mid, b', rfl, by simp; omega, hH.inactive, h2, by simp⟩
  · rintro ⟨hs, heap⟩ cs done n d f w' ⟨hst, mid, b, post, r, hH, ho, hcell, hne, hlen, hcs⟩ hd ⟨mid2, b2, hH2⟩ h
    obtain ⟨rfl, rfl, rfl⟩ := hH.last hH2
    obtain ⟨b', f', h1, h2, h3, h4, h5⟩ := Builtin.complete_open (cs.getD mid.length 0) b heap n r d hH.accepts ho hcell
    have hN : N = mid.length + 1 := by
      rw [← hH.count]; have := hH.split; simp only at this ⊢; rw [this]; simp
    have hs' := hH.split
    simp only at hs'
    subst hs'
    have i1 := completeLoop_accept (ρ := ρ) hos N b b' [] heap _ f' cs mid [] (fun x hx => (hH.inactive x hx).2)
      (by simpa using h1) (by rw [h5, hcs]; simpa using hd)
    rw [List.range_eq_range'] at h
    change completeLoop _ _ (List.range' 0 N) _ = _ at h
    simp only [List.length_nil, Nat.add_zero, List.nil_append, ← hN] at i1
    rw [i1] at h
    cases h
    exact ⟨mid, b', rfl, by simp; omega, hH.inactive, h2, by simp⟩
  · intro w w' hw h
    rw [uploadCompleteLoop_builtin] at h
    cases h
    exact hw

include hos in
theorem last_drops (N : Nat) : Drops (builtinOps ρ os N) (fun w done => BReady N w done ∧ LastTakes N w)
    (fun w cs done n d => BBusy N w cs done n d ∧ LastTakes N w) false := by
  rintro ⟨hs, heap⟩ cs done n ⟨⟨hst, mid, b, post, r, hH, ho, hcell, hne, hlen, hcs⟩, ⟨mid2, b2, hH2⟩⟩
  obtain ⟨rfl, rfl, rfl⟩ := hH.last hH2
  obtain ⟨b', f', h1, h2, h3, h4, h5⟩ := Builtin.complete_open (cs.getD mid.length 0) b heap n r [] hH.accepts ho hcell
  have hN : N = mid.length + 1 := by
    rw [← hH.count]; have := hH.split; simp only at this ⊢; rw [this]; simp
  have hs' := hH.split
  simp only at hs'
  subst hs'
  have i1 := completeLoop_drops (ρ := ρ) hos N b b' heap _ f' cs mid [] (fun x hx => (hH.inactive x hx).2)
    (by simpa using h1) (by rw [h5, hcs]; rfl)
  simp only [List.length_nil, List.nil_append, ← hN] at i1
  have hH' : Handlers N (mid ++ [b']) mid b' [] := ⟨rfl, by simp; omega, hH.inactive, h2, by simp⟩
  refine ⟨⟨mid ++ [b'], heap.set r ⟨[], 0, false⟩⟩, ?_⟩
  simp only [Bool.false_eq_true, if_false]
  refine ⟨?_, ⟨⟨mid, b', [], hH'⟩, ?_⟩, mid, b', hH'⟩
  · rw [List.range_eq_range']
    exact i1
  · exact hst.others (r := r) (fun i _ hi => by rw [List.getElem?_set_ne (Ne.symm hi)]) hne

/-- The handler has no file: completing one raises an `AttributeError`. -/
def Builtin.Unopened : Builtin → Prop
  | .memory h => h.activated = some true ∧ h.file = none
  | .temp h => h.file = none
  | .conv h => (h.switched = true → h.temp.file = none) ∧
      (h.switched = false → h.memory.activated = some true ∧ h.memory.file = none)

theorem Builtin.complete_unopened {b : Builtin} (h : b.Unopened) (size : Nat) (heap : Heap) :
    b.fileComplete size heap = (.error .attributeError, b, heap) := by
  cases b with
  | memory m =>
    obtain ⟨args, act, file⟩ := m
    obtain ⟨rfl, rfl⟩ : act = some true ∧ file = none := h
    rfl
  | temp t =>
    obtain ⟨args, hasS, file⟩ := t
    obtain rfl : file = none := h
    rfl
  | conv c =>
    obtain ⟨rec, settings, sw, ⟨margs, mact, mfile⟩, ⟨targs, thasS, tfile⟩⟩ := c
    obtain ⟨h1, h2⟩ := h
    simp only at h1 h2
    cases sw with
    | true =>
      obtain rfl := h1 rfl
      rfl
    | false =>
      obtain ⟨rfl, rfl⟩ := h2 rfl
      rfl

/-- A memory handler takes the files, and the next handler has none. -/
def MemoryFirst (N : Nat) (w : BWorld) : Prop :=
  ∃ m t rest, w.hs = .memory m :: t :: rest ∧ m.activated = some true ∧ t.Unopened ∧ N = rest.length + 2

theorem BWorld.on_zero {α : Type} {post : List Builtin} {b : Builtin} {heap : Heap}
    (f : Builtin → Heap → Res (Builtin × Heap) α) :
    (⟨b :: post, heap⟩ : BWorld).on 0 f = ((f b heap).1, ⟨(f b heap).2.1 :: post, (f b heap).2.2⟩) :=
  BWorld.on_mid (pre := []) f

theorem range_two (k : Nat) : List.range (k + 2) = 0 :: 1 :: List.range' 2 k := by
  rw [List.range_eq_range', List.range'_succ, List.range'_succ]

include hos in
theorem first_stores (N : Nat) : Stores (builtinOps ρ os N) (fun w done => BReady N w done ∧ MemoryFirst N w)
    (fun w cs done n d => BBusy N w cs done n d ∧ MemoryFirst N w) := by
  refine (builtin_stores (ρ := ρ) hos N).also (MemoryFirst N) ?_ ?_ ?_ ?_
  · rintro ⟨hs, heap⟩ done a w' - ⟨m, t, rest, h1, h2, h3, h4⟩ h
    simp only at h1
    subst h1
    obtain ⟨args, act, file⟩ := m
    obtain rfl : act = some true := h2
    change newFiles _ a (List.range N) _ = _ at h
    rw [h4, range_two, newFiles] at h
    simp only [builtinOps] at h
    rw [BWorld.on_zero] at h
    simp only [Builtin.newFile, MemoryH.newFile] at h
    cases h
    exact ⟨_, t, rest, rfl, rfl, h3, h4⟩
  · rintro ⟨hs, heap⟩ cs done n d c cs' w' - ⟨m, t, rest, h1, h2, h3, h4⟩ h
    simp only at h1
    subst h1
    obtain ⟨args, act, file⟩ := m
    obtain rfl : act = some true := h2
    change feedChunk _ (List.range N) _ _ _ = _ at h
    rw [h4, range_two, feedChunk] at h
    simp only [builtinOps] at h
    rw [BWorld.on_zero] at h
    simp only [Builtin.receive, MemoryH.receive] at h
    cases file with
    | none => simp at h
    | some r =>
      simp only at h
      rcases hm : heap.modify r (·.write c) with ⟨e | _, heap'⟩
      · rw [hm] at h; simp at h
      · rw [hm] at h
        simp only [Prod.mk.injEq] at h
        obtain ⟨-, -, rfl⟩ := h
        exact ⟨_, t, rest, rfl, rfl, h3, h4⟩
  · rintro ⟨hs, heap⟩ cs done n d f w' - - ⟨m, t, rest, h1, h2, h3, h4⟩ h
    simp only at h1
    subst h1
    change completeLoop _ _ (List.range N) _ = _ at h
    rw [h4, range_two, completeLoop] at h
    simp only [builtinOps] at h
    rw [BWorld.on_zero] at h
    rcases hm : MemoryH.fileComplete m (cs.getD 0 0) heap with ⟨e | _ | f', heap'⟩
    · simp only [Builtin.fileComplete, hm] at h; simp at h
    · obtain ⟨args, act, file⟩ := m
      obtain rfl : act = some true := h2
      simp only [MemoryH.fileComplete] at hm
      split at hm
      · split at hm <;> simp at hm
      · simp at hm
    · have hB : (Builtin.memory m).fileComplete (cs.getD 0 0) heap = (.ok (some f'), .memory m, heap') := by
        simp only [Builtin.fileComplete, hm]
      rw [hB] at h
      by_cases hz : f'.size ≠ 0
      · simp only [hz, ne_eq, not_false_eq_true, decide_true, if_true, Prod.mk.injEq] at h
        obtain ⟨-, rfl⟩ := h
        exact ⟨m, t, rest, rfl, h2, h3, h4⟩
      · exfalso
        simp only [hz, decide_false, Bool.false_eq_true, if_false] at h
        rw [completeLoop] at h
        have e := BWorld.on_mid (pre := [.memory m]) (post := rest) (b := t) (heap := heap')
          (fun b h => b.fileComplete (cs.getD 1 0) h)
        simp only [List.length_cons, List.length_nil, Nat.zero_add, List.cons_append, List.nil_append,
          Builtin.complete_unopened h3] at e
        simp only [e] at h
        simp at h
  · intro w w' hw h
    rw [uploadCompleteLoop_builtin] at h
    cases h
    exact hw

theorem first_drops (N : Nat) : Drops (builtinOps ρ os N) (fun w done => BReady N w done ∧ MemoryFirst N w)
    (fun w cs done n d => BBusy N w cs done n d ∧ MemoryFirst N w) true := by
  rintro ⟨hs, heap⟩ cs done n ⟨⟨hst, mid, b, post, r, hH, ho, hcell, hne, hlen, hcs⟩, ⟨m, t, rest, h1, h2, h3, h4⟩⟩
  simp only at h1
  subst h1
  have hsp := hH.split
  obtain ⟨rfl, rfl⟩ : mid = [] ∧ b = .memory m := by
    cases mid with
    | nil => simp only [List.nil_append, List.cons.injEq] at hsp; exact ⟨rfl, hsp.1.symm⟩
    | cons x mid =>
      simp only [List.cons_append, List.cons.injEq] at hsp
      have := (hH.inactive x (by simp)).2
      rw [← hsp.1] at this
      simp only [Builtin.Inactive] at this
      rw [h2] at this
      simp at this
  obtain ⟨b', f', k1, k2, k3, k4, k5⟩ := Builtin.complete_open (cs.getD 0 0) (.memory m) heap n r [] hH.accepts ho hcell
  refine ⟨⟨b' :: t :: rest, heap.set r ⟨[], 0, false⟩⟩, ?_⟩
  simp only [if_true]
  change completeLoop _ _ (List.range N) _ = _
  rw [h4, range_two, completeLoop]
  simp only [builtinOps]
  rw [BWorld.on_zero, k1]
  have hz : f'.size = 0 := by rw [k5]; simpa using hcs
  simp only [hz, ne_eq, not_true_eq_false, decide_false, Bool.false_eq_true, if_false]
  rw [completeLoop]
  have e := BWorld.on_mid (pre := [b']) (post := rest) (b := t) (heap := heap.set r ⟨[], 0, false⟩)
    (fun b h => b.fileComplete (cs.getD 1 0) h)
  simp only [List.length_cons, List.length_nil, Nat.zero_add, List.cons_append, List.nil_append,
    Builtin.complete_unopened h3] at e
  simp only [e]

end

/-! ### The property -/

/-- The last handler takes files, those before it are memory handlers for which the request is too large. -/
def Spec.TakesLast (S : Settings) (contentLength : Nat) (hs : List Builtin) : Prop :=
  ∃ mid b, hs = mid ++ [b] ∧ (∀ x ∈ mid, ∃ h, x = .memory h ∧ S.fileMaxMemory < contentLength) ∧
    match b with
    | .memory _ => (contentLength : Int) ≤ S.fileMaxMemory
    | .temp _ => True
    | .conv h => h.switched = false → 0 ≤ S.fileMaxMemory

/-- The first handler is a memory handler that takes files, the second one is new. -/
def Spec.MemoryTakes (S : Settings) (contentLength : Nat) (hs : List Builtin) : Prop :=
  (contentLength : Int) ≤ S.fileMaxMemory ∧ ∃ m t rest, hs = .memory m :: t :: rest ∧
    (t = .memory {} ∨ t = .temp {} ∨ t = .conv {})

theorem Spec.TakesLast.takes {S : Settings} {len : Nat} {hs : List Builtin} (h : TakesLast S len hs) :
    Takes S len hs := by
  obtain ⟨mid, b, rfl, h1, h2⟩ := h
  refine ⟨⟨b, by simp, ?_⟩, fun c hc hsw => ?_⟩
  · cases b <;> simp_all
  · rcases List.mem_append.1 hc with hc | hc
    · obtain ⟨x, hx, _⟩ := h1 _ hc; cases hx
    · simp only [List.mem_singleton] at hc
      subst hc
      exact h2 hsw

theorem Spec.TakesLast.last {S : Settings} {len : Nat} {hs : List Builtin} (h : TakesLast S len hs) (bd : Bytes)
    (heap : Heap) : LastTakes hs.length ⟨hs.map (Builtin.rawInput ⟨len, bd, S⟩), heap⟩ := by
  obtain ⟨⟨mid, b, post, hH⟩, -⟩ := h.takes.ready bd heap
  obtain ⟨mid', b', rfl, h1, h2⟩ := h
  refine ⟨mid'.map (Builtin.rawInput ⟨len, bd, S⟩), b'.rawInput ⟨len, bd, S⟩, by simp, by simp, ?_, ?_, by simp⟩
  · intro x hx
    obtain ⟨y, hy, rfl⟩ := List.mem_map.1 hx
    obtain ⟨m, rfl, hm⟩ := h1 y hy
    simp [Builtin.rawInput, Builtin.Init, Builtin.Inactive, MemoryH.rawInput]
    omega
  · cases b' with
    | memory m => simp only at h2; simp [Builtin.Accepts, Builtin.rawInput, Builtin.Init, Builtin.Inactive, MemoryH.rawInput, h2]
    | temp t => simp [Builtin.Accepts, Builtin.rawInput, Builtin.Init, Builtin.Inactive]
    | conv c =>
      refine ⟨?_, fun h => h⟩
      simp only [Builtin.rawInput, Builtin.Init, ConvH.rawInput]
      cases hsw : c.switched with
      | true => simp [hsw]
      | false => simp [hsw, MemoryH.rawInput, h2 hsw]

theorem Spec.MemoryTakes.takes {S : Settings} {len : Nat} {hs : List Builtin} (h : MemoryTakes S len hs) :
    Takes S len hs := by
  obtain ⟨h0, m, t, rest, rfl, h1⟩ := h
  exact ⟨⟨.memory m, by simp, h0⟩, fun c hc hsw => by omega⟩

theorem Spec.MemoryTakes.first {S : Settings} {len : Nat} {hs : List Builtin} (h : MemoryTakes S len hs) (bd : Bytes)
    (heap : Heap) : MemoryFirst hs.length ⟨hs.map (Builtin.rawInput ⟨len, bd, S⟩), heap⟩ := by
  obtain ⟨h0, m, t, rest, rfl, h1⟩ := h
  refine ⟨m.rawInput len S, t.rawInput ⟨len, bd, S⟩, rest.map (Builtin.rawInput ⟨len, bd, S⟩), rfl,
    by simp [MemoryH.rawInput, h0], ?_, by simp⟩
  rcases h1 with rfl | rfl | rfl
  · simp [Builtin.rawInput, Builtin.Unopened, MemoryH.rawInput, h0]
  · simp [Builtin.rawInput, Builtin.Unopened]
  · have : 0 ≤ S.fileMaxMemory := by omega
    simp [Builtin.rawInput, Builtin.Unopened, ConvH.rawInput, MemoryH.rawInput, this]

/-- **C146.** An empty file is left out and changes nothing else, when the handler that takes files is the
last one (as in the default settings): the visible result of parsing a body is what the body means by
`Spec.ReadsEmpty`, whatever the chunk size, the pieces in which the body arrives and the history of the
stream. -/
theorem C146_left_out {ρ : Type} [Producer ρ] {L : Lawful ρ} (C : Codecs) (hC : ∀ b, C.Avoids (.stopUpload b))
    (S : Settings) (hS : ∀ k, S.dataMaxMemory = some k → 0 ≤ k) (hq : emptyQueryDict C S = .ok ())
    (os : Os) (hos : ∀ e, os.tempFile e = .ok ()) (fuel64 : Nat) (m : MultiPart) (hc : 1 ≤ m.chunkSize)
    (hl : m.contentLength ≠ 0) (hs : List Builtin) (heap : Heap) (ht : TakesLast S m.contentLength hs)
    (input : LazyStream ρ) (hi : SOK L input) (hf : (L.sc input).length ≤ fuel64)
    (res : Except Exc Ghost) (hb : ReadsEmpty C S (b!"--" ++ m.boundary) false (L.sc input) ⟨[], [], none, 0, 0⟩ res) :
    viewOf (m.parse C S (builtinOps ρ os hs.length) fuel64 input ⟨hs, heap⟩).1
        (m.parse C S (builtinOps ρ os hs.length) fuel64 input ⟨hs, heap⟩).2.2.heap = res.map Ghost.view :=
  start_view C hC S hS hq os hos fuel64 m hc hl hs heap input hi res
    (fun _ _ _ hp => (Parses.reads_empty hb (last_stores (ρ := ρ) hos hs.length) (last_drops hos _) hf
      ⟨rfl, rfl, rfl, [], rfl, rfl, rfl, ht.takes.ready _ _, ht.last _ _⟩ hp).forget)

/-- **C146, the other case**: when a memory handler takes the files and another handler follows it, the
first empty file ends the parsing with an `AttributeError`. -/
theorem C146_fatal {ρ : Type} [Producer ρ] {L : Lawful ρ} (C : Codecs) (hC : ∀ b, C.Avoids (.stopUpload b))
    (S : Settings) (hS : ∀ k, S.dataMaxMemory = some k → 0 ≤ k) (hq : emptyQueryDict C S = .ok ())
    (os : Os) (hos : ∀ e, os.tempFile e = .ok ()) (fuel64 : Nat) (m : MultiPart) (hc : 1 ≤ m.chunkSize)
    (hl : m.contentLength ≠ 0) (hs : List Builtin) (heap : Heap) (ht : MemoryTakes S m.contentLength hs)
    (input : LazyStream ρ) (hi : SOK L input) (hf : (L.sc input).length ≤ fuel64)
    (res : Except Exc Ghost) (hb : ReadsEmpty C S (b!"--" ++ m.boundary) true (L.sc input) ⟨[], [], none, 0, 0⟩ res) :
    viewOf (m.parse C S (builtinOps ρ os hs.length) fuel64 input ⟨hs, heap⟩).1
        (m.parse C S (builtinOps ρ os hs.length) fuel64 input ⟨hs, heap⟩).2.2.heap = res.map Ghost.view :=
  start_view C hC S hS hq os hos fuel64 m hc hl hs heap input hi res
    (fun _ _ _ hp => (Parses.reads_empty hb (first_stores (ρ := ρ) hos hs.length) (first_drops _) hf
      ⟨rfl, rfl, rfl, [], rfl, rfl, rfl, ht.takes.ready _ _, ht.first _ _⟩ hp).forget)

/-! ### Forms -/

/-- As `FormItem.Ok`, except that a file may be empty. -/
def Spec.FormItem.OkOrEmpty (boundary : Bytes) (it : FormItem) : Prop :=
  match it with
  | .field _ _ => it.Ok boundary
  | .file n fn ct c => it.Ok boundary ∨ c = [] ∧ ∃ c', (FormItem.file n fn ct c').Ok boundary

/-- The item is an empty file. -/
def Spec.FormItem.isEmptyFile : FormItem → Bool
  | .field _ _ => false
  | .file _ _ _ c => c = []

/-- What the parser makes of a part with the header of a proper item. -/
theorem partHead_exists (C : Codecs) {boundary : Bytes} {it it' : FormItem} (hhd : it.head = it'.head)
    (h : it'.Ok boundary) : ∃ t md, PartHead C it.text t md it.data ∧ HeadOf it' t md := by
  obtain ⟨t0, md0, hp, hh⟩ := partHeaders_form C h
  have hf : Py.find b!"\r\n\r\n" (it.text.take 1024) = some it'.head.length := by
    have h4 := h.short
    have : it.text.take 1024 = it'.head ++ b!"\r\n\r\n" ++ it.data.take (1024 - (it'.head.length + 4)) := by
      unfold FormItem.text
      rw [hhd, List.take_append, List.take_of_length_le (by simp; omega)]
      congr 2
      simp
    rw [this]; exact find_head _ _ (lines_ok h)
  have hsp : Py.splitPair 13 10 (it.text.take it'.head.length) = [] :: it'.lines := by
    have htk : it.text.take it'.head.length = it'.head := by rw [← hhd]; simp [FormItem.text]
    rw [htk]; exact splitPair_head _ (fun l hl => (lines_ok h l hl).2)
  have ht : t0 ≠ .raw := by
    obtain ⟨d, _, _, hm⟩ := hh
    cases it' <;> simp_all
  refine ⟨t0, md0, ?_, hh⟩
  have := PartHead.header (C := C) hf (by rw [hsp]; exact hp) ht
  have hdr : it.text.drop (it'.head.length + 4) = it.data := by
    unfold FormItem.text
    rw [hhd, show it'.head.length + 4 = (it'.head ++ b!"\r\n\r\n").length by simp]
    simp only [List.drop_left]
  rwa [hdr] at this

theorem Spec.FormItem.OkOrEmpty.cases {boundary : Bytes} {it : FormItem} (h : it.OkOrEmpty boundary) :
    it.isEmptyFile = false ∧ it.Ok boundary ∨
    ∃ n fn ct c', it = .file n fn ct [] ∧ (FormItem.file n fn ct c').Ok boundary := by
  cases it with
  | field n v => exact .inl ⟨rfl, h⟩
  | file n fn ct c =>
    by_cases hc : c = []
    · subst hc
      rcases h with h | ⟨_, c', h⟩
      · exact absurd rfl h.kind.2.2.1
      · exact .inr ⟨n, fn, ct, c', rfl, h⟩
    · refine .inl ⟨by simp [FormItem.isEmptyFile, hc], ?_⟩
      rcases h with h | ⟨h, _⟩
      · exact h
      · exact absurd h hc

theorem Spec.FormItem.OkOrEmpty.noSep {boundary : Bytes} {it : FormItem} (h : it.OkOrEmpty boundary) :
    ¬ (b!"--" ++ boundary) <:+: it.text := by
  rcases h.cases with ⟨_, hO⟩ | ⟨n, fn, ct, c', rfl, hO⟩
  · exact hO.noSep
  · intro hc
    refine hO.noSep (hc.trans (List.IsPrefix.isInfix ⟨c', ?_⟩))
    simp [FormItem.text, FormItem.data, FormItem.head, FormItem.lines]

theorem Spec.FormItem.OkOrEmpty.no_err (C : Codecs) {boundary : Bytes} {it : FormItem} (h : it.OkOrEmpty boundary)
    (e : Exc) : ¬ HeadErr C it.text e := by
  rcases h.cases with ⟨_, hO⟩ | ⟨n, fn, ct, c', rfl, hO⟩
  · obtain ⟨t, md, h1, _⟩ := partHead_exists C rfl hO
    exact h1.no_err e
  · obtain ⟨t, md, h1, _⟩ := partHead_exists C (it := .file n fn ct []) (it' := .file n fn ct c') rfl hO
    exact h1.no_err e

theorem form_no_err (C : Codecs) {boundary tail : Bytes} (h13 : 13 ∉ boundary) (ht1 : ¬ (b!"--" ++ boundary) <:+: tail)
    (ht2 : ¬ b!"\r\n\r\n" <:+: tail) (its : List FormItem) (hok : ∀ it ∈ its, it.OkOrEmpty boundary) (e : Exc) :
    ¬ HeadErr C (cut (b!"--" ++ boundary)
      (its.flatMap (fun it => it.text ++ b!"\r\n" ++ (b!"--" ++ boundary)) ++ tail)) e := by
  cases its with
  | nil =>
    obtain ⟨c1, c2⟩ := cut_last ht1
    rw [List.flatMap_nil, List.nil_append, c1]
    rintro ⟨i, hi, _⟩
    rw [Py.find_none_iff_not_infix.2 (fun hc => ht2 (hc.trans (List.take_prefix _ _).isInfix))] at hi
    simp at hi
  | cons it its =>
    rw [List.flatMap_cons, List.append_assoc, (cut_form h13 (hok it (by simp)).noSep).1]
    exact (hok it (by simp)).no_err C e

/-- What an item adds. -/
def Ghost.add (g : Ghost) : FormItem → Ghost
  | .field n v => { g.close with
      post := g.post.append n (plainItem v)
      bytes := g.bytes + v.length + (n.length + 2)
      keys := g.keys + 1 }
  | .file n fn _ c => if c = [] then g.close else { g.close with old := some (n, fn, c) }

theorem Ghost.add_foldl (its : List FormItem) : ∀ g : Ghost, (its.foldl Ghost.add g).close =
    ⟨(fieldsOf its).foldl (fun d p => MVD.append d p.1 (plainItem p.2)) g.post,
      g.close.files ++ filesOf (its.filter (fun it => !it.isEmptyFile)), none, g.bytes + formSize its,
      g.keys + (fieldsOf its).length⟩ := by
  induction its with
  | nil => intro g; simp [Ghost.close, fieldsOf, filesOf, formSize]
  | cons it its ih =>
    intro g
    rw [List.foldl_cons, ih]
    cases it with
    | field n v =>
      simp only [Ghost.add, Ghost.close, fieldsOf, formSize, filesOf, FormItem.isEmptyFile, List.filterMap_cons,
        List.filter_cons, List.foldl_cons, List.length_cons, List.map_cons, List.sum_cons, Bool.not_false, if_true,
        Ghost.mk.injEq, true_and, Option.toList_none, List.append_nil]
      omega
    | file n fn ct c =>
      by_cases hc : c = []
      · subst hc
        simp [Ghost.add, Ghost.close, fieldsOf, formSize, filesOf, FormItem.isEmptyFile]
      · simp [Ghost.add, Ghost.close, fieldsOf, formSize, filesOf, FormItem.isEmptyFile, hc]

/-- The parts after the first separator. -/
theorem form_reads (C : Codecs) (S : Settings) (fatal : Bool)
    (hcs : ∀ n, (∀ c ∈ n, c < 128) → C.strEncode S.defaultCharset n = .ok n)
    {boundary tail : Bytes} (h13 : 13 ∉ boundary) (ht : tail ≠ []) (ht1 : ¬ (b!"--" ++ boundary) <:+: tail)
    (ht2 : ¬ b!"\r\n\r\n" <:+: tail) :
    ∀ (its : List FormItem) (g : Ghost), (∀ it ∈ its, it.OkOrEmpty boundary) →
      (∀ k, S.maxFields = some k → ((g.keys + (fieldsOf its).length : Nat) : Int) ≤ k) →
      (∀ k, S.dataMaxMemory = some k → ((g.bytes + formSize its : Nat) : Int) ≤ k) →
      ReadsEmpty C S (b!"--" ++ boundary) fatal
        (its.flatMap (fun it => it.text ++ b!"\r\n" ++ (b!"--" ++ boundary)) ++ tail) g
        (if fatal = true ∧ its.any FormItem.isEmptyFile = true then .error .attributeError
          else .ok (its.foldl Ghost.add g).close) := by
  intro its
  induction its with
  | nil =>
    intro g _ _ _
    simpa using ReadsEmpty.rest (C := C) (S := S) (fatal := fatal) (g := g) ht ht1 ht2
  | cons it its ih =>
    intro g hok hk hb
    have hit := hok it (by simp)
    have hne := form_no_err C h13 ht1 ht2 its (fun it' h => hok it' (by simp [h]))
    have ih' := fun g' => ih g' (fun it' h => hok it' (by simp [h]))
    clear ih
    rw [List.flatMap_cons, List.append_assoc]
    generalize hrest : List.flatMap (fun it => it.text ++ b!"\r\n" ++ (b!"--" ++ boundary)) its ++ tail = rest at ih' hne ⊢
    have hr0 : rest ≠ [] := by rw [← hrest]; simp [ht]
    obtain ⟨c1, c2⟩ := cut_form (rest := rest) h13 hit.noSep
    rcases hit.cases with ⟨hie, hO⟩ | ⟨n, fn, ct, c', rfl, hO⟩
    · obtain ⟨t, md, p1, d, q1, q2, q3⟩ := partHead_exists C rfl hO
      have hname : forceText (PyStr.b it.name).strip = .ok it.name := by
        simp [PyStr.strip, forceText, hO.trimmed]
      have hkd := hO.kind
      have hany : (it :: its).any FormItem.isEmptyFile = its.any FormItem.isEmptyFile := by
        simp [hie]
      rw [hany, List.foldl_cons]
      cases it with
      | field n v =>
        obtain ⟨rfl, q4⟩ := q3
        have hfs : formSize (.field n v :: its) = (v.length + n.length + 2) + formSize its := by
          simp [formSize, fieldsOf]
        have hfl : (fieldsOf (.field n v :: its)).length = (fieldsOf its).length + 1 := by simp [fieldsOf]
        rw [hfl] at hk
        rw [hfs] at hb
        refine .part (by simp) (by rw [c1]; exact p1) (.field (data := v) (key := n) q1 hname rfl
          (fun k h => by have := hk k h; simp only [Ghost.close]; omega)
          (fun k h => by have := hb k h; simp only [Ghost.close, FormItem.data, FormItem.name]; omega)
          (by rw [q2]; simp [FieldData, FormItem.data]) (hcs n hkd.1) (.inr (hcs n hkd.1))) ?_
        have e1 : ({ g.close with
            post := g.close.post.append n (fieldItem md v)
            bytes := g.close.bytes + (FormItem.field n v).data.length + ((FormItem.field n v).name.length + 2)
            keys := g.close.keys + 1 } : Ghost) = g.add (.field n v) := by
          simp [Ghost.add, Ghost.close, fieldItem, plainItem, q2, q4, FormItem.data, FormItem.name]
          rfl
        rw [e1, c2]
        exact ih' _ (fun k h => by have := hk k h; simp only [Ghost.add]; omega)
          (fun k h => by have := hb k h; simp only [Ghost.add]; omega)
      | file n fn ct c =>
        obtain ⟨rfl, q4⟩ := q3
        obtain ⟨k1, k2, k3, k4, k5, k6, k7, k8⟩ := hkd
        have hfn : dispositionFileName d = .ok fn := by
          simp only [dispositionFileName, q4, PyStr.truthy, ne_eq, k4, not_false_eq_true, decide_true, if_true]
          exact fileNameOf_plain k7 k5
        refine .part (by simp) (by rw [c1]; exact p1) (.file (data := c) q1 hname rfl hfn k4 k1
          (by rw [q2]; simp [FileData, FormItem.data]) k3) ?_
        have e1 : ({ g.close with old := some ((FormItem.file n fn ct c).name, fn, c) } : Ghost) = g.add (.file n fn ct c) := by
          simp [Ghost.add, k3, FormItem.name]
        rw [e1, c2]
        have hga : (g.add (.file n fn ct c)).keys = g.keys ∧ (g.add (.file n fn ct c)).bytes = g.bytes := by
          simp [Ghost.add, k3, Ghost.close]
        exact ih' _ (fun k h => by rw [hga.1]; exact hk k h) (fun k h => by rw [hga.2]; exact hb k h)
    · obtain ⟨t, md, p1, d, q1, q2, q3⟩ := partHead_exists C (it := .file n fn ct []) (it' := .file n fn ct c') rfl hO
      obtain ⟨rfl, q4⟩ := q3
      have hname : forceText (PyStr.b n).strip = .ok n := by
        have := hO.trimmed
        simp only [FormItem.name] at this
        simp [PyStr.strip, forceText, this]
      obtain ⟨k1, k2, k3, k4, k5, k6, k7, k8⟩ := hO.kind
      have hfn : dispositionFileName d = .ok fn := by
        simp only [dispositionFileName, q4, PyStr.truthy, ne_eq, k4, not_false_eq_true, decide_true, if_true]
        exact fileNameOf_plain k7 k5
      have hE : EmptyFile .file md [] := ⟨d, _, n, fn, q1, hname, rfl, hfn, k4, k1, by rw [q2]; simp [FileData]⟩
      cases fatal with
      | true =>
        rw [if_pos ⟨rfl, by simp [FormItem.isEmptyFile]⟩]
        exact .emptyFatal (by simp) (by rw [c1]; exact p1) hE (by rw [c2]; exact hr0) rfl (by rw [c2]; exact hne)
      | false =>
        refine .empty (by simp) (by rw [c1]; exact p1) hE (by rw [c2]; exact hr0) rfl ?_
        have := ih' g.close hk hb
        rw [c2]
        simpa [Ghost.add] using this

/-- The whole body. -/
theorem renderForm_reads (C : Codecs) (S : Settings) (fatal : Bool)
    (hcs : ∀ n, (∀ c ∈ n, c < 128) → C.strEncode S.defaultCharset n = .ok n)
    {boundary : Bytes} (h13 : 13 ∉ boundary) {pre : Option Bytes} {epi : Bytes} (ha : Around boundary pre epi)
    (its : List FormItem) (hok : ∀ it ∈ its, it.OkOrEmpty boundary) (hlim : InLimits S its) :
    ReadsEmpty C S (b!"--" ++ boundary) fatal (renderForm boundary its pre epi) ⟨[], [], none, 0, 0⟩
      (if fatal = true ∧ its.any FormItem.isEmptyFile = true then .error .attributeError
        else .ok (its.foldl Ghost.add ⟨[], [], none, 0, 0⟩).close) := by
  unfold Spec.renderForm
  generalize hrest : List.flatMap (fun it => it.text ++ b!"\r\n" ++ (b!"--" ++ boundary)) its ++ (b!"--" ++ epi) = rest
  obtain ⟨P, hP1, hP2, hP3, hP4⟩ : ∃ P : Bytes,
      cut (b!"--" ++ boundary) (pre.elim [] (· ++ b!"\r\n") ++ (b!"--" ++ boundary ++ rest)) = P ∧
      after (b!"--" ++ boundary) (pre.elim [] (· ++ b!"\r\n") ++ (b!"--" ++ boundary ++ rest)) = rest ∧
      Py.find b!"\r\n\r\n" (P.take 1024) = none ∧ P.length < 1024 := by
    cases pre with
    | none =>
      obtain ⟨c1, c2⟩ := cut_first (sep := b!"--" ++ boundary) (rest := rest)
      exact ⟨[], by simpa using c1, by simpa using c2, by decide, by simp⟩
    | some p =>
      obtain ⟨c1, c2⟩ := cut_form (rest := rest) h13 (ha.preSep p rfl)
      refine ⟨p, by simpa using c1, by simpa using c2, ?_, ha.preShort p rfl⟩
      exact Py.find_none_iff_not_infix.2 (fun hc => ha.preHead p rfl (hc.trans (List.take_prefix _ _).isInfix))
  refine .part (by simp) (by rw [hP1]; exact .noHeader hP3) (.unnamed rfl (by rw [hP1]; exact hP4)) ?_
  rw [hP2, ← hrest]
  have hhead : ¬ b!"\r\n\r\n" <:+: b!"--" ++ epi := by
    intro hc
    apply ha.epiHead
    obtain ⟨a, b, e⟩ := hc
    match a, e with
    | [], e => simp at e
    | [_], e => simp at e
    | _ :: _ :: a, e =>
      simp only [List.cons_append, List.append_assoc, List.cons.injEq, List.nil_append] at e
      exact ⟨a, b, by simpa using e.2.2⟩
  exact form_reads C S fatal hcs h13 (by simp) ha.epiSep hhead its _ hok
    (fun k h => by have := hlim.count k h; simpa [Ghost.close] using this)
    (fun k h => by have := hlim.memory k h; simpa [Ghost.close] using this)

/-- What a form with empty files looks like when they are left out. -/
theorem form_view {boundary : Bytes} (its : List FormItem) (hok : ∀ it ∈ its, it.OkOrEmpty boundary) :
    Ghost.view (its.foldl Ghost.add ⟨[], [], none, 0, 0⟩).close = formView (its.filter (fun it => !it.isEmptyFile)) := by
  have hfld : fieldsOf (its.filter (fun it => !it.isEmptyFile)) = fieldsOf its := by
    clear hok
    induction its with
    | nil => rfl
    | cons it its ih =>
      cases it with
      | field n v => simpa [fieldsOf, FormItem.isEmptyFile] using ih
      | file n fn ct c =>
        by_cases hc : c = []
        · simpa [fieldsOf, FormItem.isEmptyFile, hc] using ih
        · simpa [fieldsOf, FormItem.isEmptyFile, hc] using ih
  rw [Ghost.add_foldl]
  simp only [Ghost.view, formView, hfld, Ghost.close, Option.toList_none, List.append_nil, List.nil_append,
    Prod.mk.injEq, true_and]
  have hn : ∀ p ∈ filesOf (its.filter (fun it => !it.isEmptyFile)), setName p.2.1 = p.2.1 := by
    intro p hp
    obtain ⟨it, hit, hit2⟩ := List.mem_filterMap.1 hp
    obtain ⟨h1, h2⟩ := List.mem_filter.1 hit
    rcases (hok it h1).cases with ⟨_, h⟩ | ⟨n, fn, ct, c', rfl, _⟩
    · cases it with
      | field => simp at hit2
      | file n fn ct c =>
        obtain ⟨_, _, _, _, _, k6, k7, _⟩ := h.kind
        simp only [Option.some.injEq] at hit2
        rw [← hit2]
        exact setName_id (fun h => (k7 47 h).2.2.1 rfl) k6
    · simp [FormItem.isEmptyFile] at h2
  generalize filesOf (its.filter (fun it => !it.isEmptyFile)) = l at hn
  suffices h : ∀ d : MVD (Bytes × Nat × Option Bytes),
      l.foldl (fun d p => MVD.append d p.1 (setName p.2.1, p.2.2.length, some p.2.2)) d =
      l.foldl (fun d p => MVD.append d p.1 (p.2.1, p.2.2.length, some p.2.2)) d from h []
  induction l with
  | nil => intro d; rfl
  | cons p l ih =>
    intro d
    rw [List.foldl_cons, List.foldl_cons, hn p (by simp)]
    exact ih (fun q hq => hn q (by simp [hq])) _

/-- **C146 for forms.** A form in which some files are empty is read like the form without these files,
when the handler that takes files is the last one. -/
theorem C146_form {ρ : Type} [Producer ρ] {L : Lawful ρ} (C : Codecs) (hC : ∀ b, C.Avoids (.stopUpload b))
    (S : Settings) (hS : ∀ k, S.dataMaxMemory = some k → 0 ≤ k) (hq : emptyQueryDict C S = .ok ())
    (os : Os) (hos : ∀ e, os.tempFile e = .ok ()) (fuel64 : Nat) (m : MultiPart) (hc : 1 ≤ m.chunkSize)
    (hl : m.contentLength ≠ 0) (h13 : 13 ∉ m.boundary) {pre : Option Bytes} {epi : Bytes}
    (ha : Around m.boundary pre epi)
    (hcs : ∀ n, (∀ c ∈ n, c < 128) → C.strEncode S.defaultCharset n = .ok n)
    (its : List FormItem) (hok : ∀ it ∈ its, it.OkOrEmpty m.boundary) (hlim : InLimits S its)
    (hs : List Builtin) (heap : Heap) (ht : TakesLast S m.contentLength hs)
    (input : LazyStream ρ) (hi : SOK L input) (hin : L.sc input = renderForm m.boundary its pre epi)
    (hf : (L.sc input).length ≤ fuel64) :
    viewOf (m.parse C S (builtinOps ρ os hs.length) fuel64 input ⟨hs, heap⟩).1
        (m.parse C S (builtinOps ρ os hs.length) fuel64 input ⟨hs, heap⟩).2.2.heap =
      .ok (formView (its.filter (fun it => !it.isEmptyFile))) := by
  have := C146_left_out C hC S hS hq os hos fuel64 m hc hl hs heap ht input hi hf _
    (by rw [hin]; exact renderForm_reads C S false hcs h13 ha its hok hlim)
  rw [this, if_neg (by simp)]
  simp only [Except.map]
  rw [form_view its hok]

/-- **C146 for forms, the other case**: when a memory handler takes the files and another handler follows it,
a form in which some file is empty is not read at all. -/
theorem C146_form_fatal {ρ : Type} [Producer ρ] {L : Lawful ρ} (C : Codecs) (hC : ∀ b, C.Avoids (.stopUpload b))
    (S : Settings) (hS : ∀ k, S.dataMaxMemory = some k → 0 ≤ k) (hq : emptyQueryDict C S = .ok ())
    (os : Os) (hos : ∀ e, os.tempFile e = .ok ()) (fuel64 : Nat) (m : MultiPart) (hc : 1 ≤ m.chunkSize)
    (hl : m.contentLength ≠ 0) (h13 : 13 ∉ m.boundary) {pre : Option Bytes} {epi : Bytes}
    (ha : Around m.boundary pre epi)
    (hcs : ∀ n, (∀ c ∈ n, c < 128) → C.strEncode S.defaultCharset n = .ok n)
    (its : List FormItem) (hok : ∀ it ∈ its, it.OkOrEmpty m.boundary) (hlim : InLimits S its)
    (hs : List Builtin) (heap : Heap) (ht : MemoryTakes S m.contentLength hs)
    (input : LazyStream ρ) (hi : SOK L input) (hin : L.sc input = renderForm m.boundary its pre epi)
    (hf : (L.sc input).length ≤ fuel64) (he : ∃ it ∈ its, it.isEmptyFile = true) :
    (m.parse C S (builtinOps ρ os hs.length) fuel64 input ⟨hs, heap⟩).1 = .error .attributeError := by
  have := C146_fatal C hC S hS hq os hos fuel64 m hc hl hs heap ht input hi hf _
    (by rw [hin]; exact renderForm_reads C S true hcs h13 ha its hok hlim)
  rw [if_pos ⟨rfl, by simpa using he⟩] at this
  generalize (m.parse C S (builtinOps ρ os hs.length) fuel64 input ⟨hs, heap⟩).2.2.heap = hp at this
  generalize (m.parse C S (builtinOps ρ os hs.length) fuel64 input ⟨hs, heap⟩).1 = r at this ⊢
  cases r with
  | error e => simp only [viewOf, Except.map, Except.error.injEq] at this; rw [this]
  | ok p => simp [viewOf, Except.map] at this

/-! ### A form that meets the hypotheses -/

/-- A field, an empty file, a file of the same name, an empty file again. -/
def gapForm : List FormItem :=
  [.field b!"a" b!"x", .file b!"up" b!"n.txt" b!"text/plain" [], .file b!"up" b!"m.txt" b!"text/plain" b!"data",
    .file b!"last" b!"l" b!"" []]

theorem gapForm_ok : ∀ it ∈ gapForm, it.OkOrEmpty b!"B~1" := by
  intro it hit
  simp only [gapForm, List.mem_cons, List.not_mem_nil, or_false] at hit
  rcases hit with rfl | rfl | rfl | rfl
  · exact ⟨by decide +kernel, by decide +kernel, by decide +kernel, by decide +kernel,
      by decide +kernel, separable_of_no_semicolon (by decide +kernel) (by decide +kernel)⟩
  · exact .inr ⟨rfl, [97], by decide +kernel, by decide +kernel, by decide +kernel, by decide +kernel,
      by decide +kernel, separable_of_no_semicolon (by decide +kernel) (by decide +kernel), by decide +kernel,
      by decide +kernel, by decide +kernel, by decide +kernel, by decide +kernel, by decide +kernel⟩
  · exact .inl ⟨by decide +kernel, by decide +kernel, by decide +kernel, by decide +kernel,
      by decide +kernel, separable_of_no_semicolon (by decide +kernel) (by decide +kernel), by decide +kernel,
      by decide +kernel, by decide +kernel, by decide +kernel, by decide +kernel, by decide +kernel⟩
  · exact .inr ⟨rfl, [97], by decide +kernel, by decide +kernel, by decide +kernel, by decide +kernel,
      by decide +kernel, separable_of_no_semicolon (by decide +kernel) (by decide +kernel), by decide +kernel,
      by decide +kernel, by decide +kernel, by decide +kernel, by decide +kernel, by decide +kernel⟩

theorem gapAround : Around b!"B~1" none b!"\r\n" :=
  ⟨by simp, by simp, by simp, by decide +kernel, by decide +kernel⟩

/-- With the handlers of the default settings: one field, one file. -/
example (k : Nat) (hk : 1 ≤ k) (cs : List Bytes) (h : cs.flatten = renderForm b!"B~1" gapForm none b!"\r\n") :
    viewOf ((⟨b!"B~1", k, 1000⟩ : MultiPart).parse latinCodecs {} (builtinOps Source goodOs 1) 1000
        (LazyStream.mk' ⟨cs⟩) ⟨[.conv {}], []⟩).1
      ((⟨b!"B~1", k, 1000⟩ : MultiPart).parse latinCodecs {} (builtinOps Source goodOs 1) 1000
        (LazyStream.mk' ⟨cs⟩) ⟨[.conv {}], []⟩).2.2.heap =
      .ok ([(b!"a", [plainItem b!"x"])], [(b!"up", [(b!"m.txt", 4, some b!"data")])]) :=
  C146_form (L := Source.lawful) latinCodecs (fun b => latin_avoids (by simp) (by simp)) {}
    (by intro k h; cases h; decide) rfl goodOs (fun _ => rfl) 1000 ⟨b!"B~1", k, 1000⟩ hk (by simp) (by simp) gapAround
    (fun n hn => by
      have : Py.isAscii n = true := by simpa [Py.isAscii] using hn
      simp [latinCodecs, this]) gapForm gapForm_ok
    ⟨by intro n h; cases h; decide, by intro n h; cases h; decide⟩ [.conv {}] []
    ⟨[], .conv {}, rfl, by simp, fun _ => by decide⟩ _ (SOK.fresh cs) (by rw [sc_fresh]; exact h)
    (by rw [sc_fresh]; show cs.flatten.length ≤ 1000; rw [h]; decide +kernel)

/-- With a memory handler before a temporary-file handler: an `AttributeError`. -/
example (k : Nat) (hk : 1 ≤ k) (cs : List Bytes) (h : cs.flatten = renderForm b!"B~1" gapForm none b!"\r\n") :
    ((⟨b!"B~1", k, 1000⟩ : MultiPart).parse latinCodecs {} (builtinOps Source goodOs 2) 1000
        (LazyStream.mk' ⟨cs⟩) ⟨[.memory {}, .temp {}], []⟩).1 = .error .attributeError :=
  C146_form_fatal (L := Source.lawful) latinCodecs (fun b => latin_avoids (by simp) (by simp)) {}
    (by intro k h; cases h; decide) rfl goodOs (fun _ => rfl) 1000 ⟨b!"B~1", k, 1000⟩ hk (by simp) (by simp) gapAround
    (fun n hn => by
      have : Py.isAscii n = true := by simpa [Py.isAscii] using hn
      simp [latinCodecs, this]) gapForm gapForm_ok
    ⟨by intro n h; cases h; decide, by intro n h; cases h; decide⟩ [.memory {}, .temp {}] []
    ⟨by show (1000 : Int) ≤ _; decide, {}, .temp {}, [], rfl, .inr (.inl rfl)⟩ _ (SOK.fresh cs) (by rw [sc_fresh]; exact h)
    (by rw [sc_fresh]; show cs.flatten.length ≤ 1000; rw [h]; decide +kernel) ⟨.file b!"last" b!"l" b!"" [], by simp [gapForm], rfl⟩

end Verif
