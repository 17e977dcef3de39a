import Verif.Props.Convenient
import Verif.Props.Files
/-!
# Where uploaded files are kept (C112)
-/

namespace Verif
open Spec

/-! ### A memory handler followed by a temporary-file handler -/

/-- The world of a `MemoryFileUploadHandler` that found itself (not) responsible, followed by a
`TemporaryFileUploadHandler`. -/
def MemTemp (act : Bool) (w : BWorld) : Prop :=
  ∃ mh th, w.hs = [.memory mh, .temp th] ∧ mh.activated = some act ∧
    ∀ f, th.file = some f → f.inMemory = false ∧ act = false

theorem MemTemp.on {act : Bool} {α : Type} {w : BWorld} (h : MemTemp act w) (i : Nat)
    (f : Builtin → Heap → Res (Builtin × Heap) α)
    (h0 : ∀ (mh : MemoryH) heap, mh.activated = some act →
      ∃ mh' : MemoryH, (f (.memory mh) heap).2.1 = .memory mh' ∧ mh'.activated = some act)
    (h1 : ∀ (th : TempH) heap, (∀ f, th.file = some f → f.inMemory = false ∧ act = false) →
      ∃ th' : TempH, (f (.temp th) heap).2.1 = .temp th' ∧ ∀ f, th'.file = some f → f.inMemory = false ∧ act = false) :
    MemTemp act (w.on i f).2 := by
  obtain ⟨hs, heap⟩ := w
  obtain ⟨mh, th, e, a, t⟩ := h
  simp only at e
  subst e
  match i with
  | 0 =>
    obtain ⟨mh', q1, q2⟩ := h0 mh heap a
    simp only [BWorld.on, List.getElem?_cons_zero]
    exact ⟨mh', th, by simp [q1], q2, t⟩
  | 1 =>
    obtain ⟨th', q1, q2⟩ := h1 th heap t
    simp only [BWorld.on, List.getElem?_cons_succ, List.getElem?_cons_zero]
    exact ⟨mh, th', by simp [q1], a, q2⟩
  | i + 2 => exact ⟨mh, th, rfl, a, t⟩

theorem memTemp_keeps (ρ : Type) (os : Os) (act : Bool) :
    (builtinOps ρ os 2).Keeps (MemTemp act) (fun f => f.inMemory = act) (fun _ => True) where
  newFiles := by
    rintro a ⟨hs, heap⟩ ⟨mh, th, e, h1, h2⟩ -
    simp only at e
    subst e
    change MemTemp act (newFiles (builtinOps ρ os 2) a [0, 1] _).2
    cases act with
    | true =>
      simp only [newFiles, builtinOps, BWorld.on, List.getElem?_cons_zero, Builtin.newFile, MemoryH.newFile, h1]
      exact ⟨_, th, rfl, rfl, h2⟩
    | false =>
      simp only [newFiles, builtinOps, BWorld.on, List.getElem?_cons_zero, Builtin.newFile, MemoryH.newFile, h1,
        List.set_cons_zero, List.getElem?_cons_succ, TempH.newFile]
      by_cases hset : th.hasSettings = false
      · simp only [hset, if_true]
        exact ⟨_, _, rfl, rfl, h2⟩
      · simp only [hset, if_false]
        cases os.tempFile (Py.splitext a.fileName).2 with
        | error e =>
          cases e <;> exact ⟨_, _, rfl, rfl, h2⟩
        | ok u =>
          refine ⟨_, _, rfl, rfl, ?_⟩
          intro f hf
          cases hf
          exact ⟨rfl, rfl⟩
  receive i d n w h := by
    refine h.on i _ ?_ ?_
    · intro mh heap hm
      exact ⟨mh, rfl, hm⟩
    · intro th heap ht
      exact ⟨th, rfl, ht⟩
  fileComplete i n w h := by
    refine h.on i _ ?_ ?_
    · intro mh heap hm
      exact ⟨mh, rfl, hm⟩
    · intro th heap ht
      simp only [Builtin.fileComplete, TempH.fileComplete]
      split
      · exact ⟨th, rfl, ht⟩
      · rename_i f hf
        split
        · exact ⟨_, rfl, ht⟩
        · refine ⟨_, rfl, ?_⟩
          intro g hg
          cases hg
          exact ht f hf
  complete := by
    rintro i n ⟨hs, heap⟩ f ⟨mh, th, e, h1, h2⟩ hf
    simp only at e
    subst e
    match i with
    | 0 =>
      simp only [builtinOps, BWorld.on, List.getElem?_cons_zero, Builtin.fileComplete, MemoryH.fileComplete, h1] at hf
      cases act with
      | false => simp at hf
      | true =>
        simp only at hf
        split at hf
        · split at hf
          · simp at hf
          · simp only [Except.ok.injEq, Option.some.injEq] at hf
            rw [← hf]
        · simp at hf
    | 1 =>
      simp only [builtinOps, BWorld.on, List.getElem?_cons_zero, List.getElem?_cons_succ, Builtin.fileComplete,
        TempH.fileComplete] at hf
      split at hf
      · simp at hf
      · rename_i g hg
        obtain ⟨q1, q2⟩ := h2 g hg
        split at hf
        · simp at hf
        · simp only [Except.ok.injEq, Option.some.injEq] at hf
          rw [← hf, q2]
          exact q1
    | i + 2 => simp [builtinOps, BWorld.on] at hf
  uploadComplete i w h := h
  close i w h := by
    refine h.on i _ ?_ ?_
    · intro mh heap hm
      exact ⟨mh, rfl, hm⟩
    · intro th heap ht
      exact ⟨th, rfl, ht⟩

/-- **C112, a `MemoryFileUploadHandler` followed by a `TemporaryFileUploadHandler`**: for every body,
however malformed, every kind of stream and every cutting into chunks, a file of the result is kept in
memory exactly if the announced length of the request is at most `FILE_UPLOAD_MAX_MEMORY_SIZE`. -/
theorem C112_memory {ρ : Type} [Producer ρ] (C : Codecs) (S : Settings) (os : Os) (fuel64 : Nat)
    (m : MultiPart) (input s' : LazyStream ρ) (mh : MemoryH) (heap : Heap) (w' : BWorld)
    {post : MVD PostItem} {files : MVD Uploaded}
    (h : m.parse C S (builtinOps ρ os 2) fuel64 input ⟨[.memory mh, .temp {}], heap⟩ = (.ok (post, files), s', w')) :
    ∀ p ∈ items files, p.2.inMemory = true ↔ (m.contentLength : Int) ≤ S.fileMaxMemory := by
  by_cases hl : m.contentLength = 0
  · unfold MultiPart.parse at h
    rw [if_pos hl] at h
    split at h
    · simp at h
    · simp only [Prod.mk.injEq, Except.ok.injEq] at h
      rw [← h.1.2]
      simp [items]
  have hraw := rawInputLoop_builtin (ρ := ρ) os 2 ⟨m.contentLength, m.boundary, S⟩ input heap [.memory mh, .temp {}] []
  simp only [List.length_nil, List.nil_append, ← List.range_eq_range', List.length_cons] at hraw
  have := parse_keeps (memTemp_keeps ρ os (decide ((m.contentLength : Int) ≤ S.fileMaxMemory)))
    (fun _ _ _ _ _ _ _ => trivial) C S fuel64 m hl input input _ _ hraw
    ⟨_, _, rfl, rfl, fun f hf => by cases hf⟩
  rw [h] at this
  intro p hp
  rw [this.2 post files rfl p hp, decide_eq_true_iff]

/-! ### `ConvenientFileUploadHandler` -/

/-- The handler has received `n` bytes in all, and has switched to temporary files exactly if that is more
than the limit. -/
structure ConvH.Track (M : Int) (n : Nat) (h : ConvH) : Prop where
  limit : h.fileMax = some M
  received : h.received = n
  switched : h.switched = true ↔ M < n
  temp : ∀ f, h.temp.file = some f → f.inMemory = false

theorem ConvH.Track.newFile {os : Os} {M : Int} {n : Nat} {h : ConvH} (ht : h.Track M n) (a : NewFileArgs) (heap : Heap) :
    (h.newFile os a heap).2.1.Track M n := by
  unfold ConvH.newFile
  obtain ⟨rec, settings, sw, m, t⟩ := h
  cases sw with
  | true =>
    simp only [if_true]
    refine ⟨ht.limit, ht.received, ht.switched, ?_⟩
    simp only [TempH.newFile]
    repeat' split
    all_goals first
      | exact ht.temp
      | (intro f hf; simp at hf; subst hf; rfl)
  | false =>
    simp only [Bool.false_eq_true, if_false]
    exact ⟨ht.limit, ht.received, ht.switched, ht.temp⟩

theorem ConvH.switch_received {os : Os} {h h' : ConvH} {heap heap' : Heap}
    (e : h.switch os heap = (.ok (), h', heap')) : h'.received = h.received := by
  unfold ConvH.switch at e
  split at e
  · simp at e
  · simp at e
  · split at e
    · simp at e
    · split at e
      · simp at e
      · dsimp only at e
        generalize h1 : TempH.newFile _ _ _ _ = z at e
        obtain ⟨(er | _), t, heap1⟩ := z
        · simp at e
        · simp only at e
          split at e
          · simp at e
          · simp only [Prod.mk.injEq, true_and] at e
            obtain ⟨rfl, rfl⟩ := e
            rfl

theorem ConvH.Track.receive {os : Os} {M : Int} {n : Nat} {h h' : ConvH} {heap heap' : Heap} {c : Bytes}
    {r : Option Bytes} (ht : h.Track M n) (e : h.receive os c heap = (.ok r, h', heap')) :
    h'.Track M (n + c.length) := by
  have hr := ht.received
  unfold ConvH.receive at e
  rw [ht.limit] at e
  simp only at e
  by_cases hsw : h.switched = true
  · rw [if_neg (by simp [hsw])] at e
    simp only [hsw, if_true] at e
    split at e
    · simp at e
    · simp only [Prod.mk.injEq] at e
      obtain ⟨_, rfl, _⟩ := e
      have := ht.switched.1 hsw
      exact ⟨ht.limit, by simp [hr], by simp only [hsw, true_iff]; omega, ht.temp⟩
  · have hno : ¬ M < n := fun h => hsw (ht.switched.2 h)
    have hsw : h.switched = false := by simpa using hsw
    by_cases hgt : (h.received : Int) + c.length > M
    · rw [if_pos ⟨hsw, hgt⟩] at e
      generalize hz : h.switch os heap = z at e
      obtain ⟨(er | _), h1, heap1⟩ := z
      · simp at e
      · obtain ⟨k1, k2, k3⟩ := ConvH.switch_mem (S := { fileMaxMemory := M }) ht.limit hz
        have k4 := ConvH.switch_received hz
        simp only [k2, if_true] at e
        split at e
        · simp at e
        · simp only [Prod.mk.injEq] at e
          obtain ⟨_, rfl, _⟩ := e
          exact ⟨k1, by simp [k4, hr], by simp only [k2, true_iff]; omega, k3⟩
    · rw [if_neg (by intro h; exact hgt h.2)] at e
      simp only [hsw, Bool.false_eq_true, if_false] at e
      split at e
      · simp at e
      · simp only [Prod.mk.injEq] at e
        obtain ⟨_, rfl, _⟩ := e
        refine ⟨ht.limit, by simp [hr], ?_, ht.temp⟩
        simp only [hsw, Bool.false_eq_true, false_iff]
        omega

theorem ConvH.Track.complete {M : Int} {n : Nat} {h h' : ConvH} {heap heap' : Heap} {size : Nat} {f : Uploaded}
    (ht : h.Track M n) (e : h.fileComplete size heap = (.ok (some f), h', heap')) :
    h'.Track M n ∧ (f.inMemory = true ↔ (n : Int) ≤ M) := by
  obtain ⟨k1, k2, k3, k4, k5⟩ := ConvH.complete_mem ht.temp e
  refine ⟨⟨k1.trans ht.limit, k3.trans ht.received, by rw [k2]; exact ht.switched, k4⟩, ?_⟩
  cases hsw : h.switched with
  | true =>
    have := ht.switched.1 hsw
    have h5 := k5 hsw
    simp only [Option.any_some] at h5
    simp only [h5, Bool.false_eq_true, false_iff]
    omega
  | false =>
    have hno : ¬ M < n := fun h => by rw [ht.switched.2 h] at hsw; cases hsw
    simp only [ConvH.fileComplete, hsw, Bool.false_eq_true, if_false, MemoryH.fileComplete] at e
    have : f.inMemory = true := by
      split at e
      · simp at e
      · simp at e
      · split at e
        · split at e
          · simp at e
          · simp only [Prod.mk.injEq, Except.ok.injEq, Option.some.injEq] at e
            rw [← e.1]
        · simp at e
    simp only [this, true_iff]
    omega

/-- The bytes of the files up to now. -/
def totalSize {F : Type} (done : List (Bytes × F × Bytes)) : Nat := (done.map (fun p => p.2.2.length)).sum

/-- A file is in memory exactly if the files up to and including it have at most `M` bytes. -/
def KeptBy (M : Int) (done : List (Bytes × Uploaded × Bytes)) : Prop :=
  ∀ before p after, done = before ++ p :: after →
    (p.2.1.inMemory = true ↔ ((totalSize before + p.2.2.length : Nat) : Int) ≤ M)

def OneConv (M : Int) (n : Nat) (w : BWorld) : Prop := ∃ h, w.hs = [.conv h] ∧ h.Track M n

theorem KeptBy.snoc {M : Int} {done : List (Bytes × Uploaded × Bytes)} {p : Bytes × Uploaded × Bytes} (h : KeptBy M done)
    (hp : p.2.1.inMemory = true ↔ ((totalSize done + p.2.2.length : Nat) : Int) ≤ M) : KeptBy M (done ++ [p]) := by
  intro before q after e
  rcases List.eq_nil_or_concat after with rfl | ⟨after', x, rfl⟩
  · have := List.append_inj' e rfl
    obtain ⟨rfl, h2⟩ := this
    cases h2
    exact hp
  · rw [List.concat_eq_append, ← List.cons_append, ← List.append_assoc] at e
    exact h before q after' (List.append_inj' e rfl).1

/-- The files of one `ConvenientFileUploadHandler`, and where they are. -/
theorem conv_stores {ρ : Type} {os : Os} (hos : ∀ e, os.tempFile e = .ok ()) (M : Int) :
    Stores (builtinOps ρ os 1) (fun w done => BReady 1 w done ∧ OneConv M (totalSize done) w ∧ KeptBy M done)
      (fun w cs done n d => BBusy 1 w cs done n d ∧ OneConv M (totalSize done + d.length) w ∧ KeptBy M done) where
  opens := by
    rintro w done a - ⟨h, ⟨c, hc, ht⟩, hk⟩
    obtain ⟨w', h1, h2⟩ := (builtin_stores (ρ := ρ) hos 1).opens w done a trivial h
    refine ⟨w', h1, h2, ⟨(c.newFile os a w.heap).2.1, ?_, by simpa using ht.newFile a w.heap⟩, hk⟩
    have e : (newFiles (builtinOps ρ os 1) a [0] w).2 = w' := by
      have : List.range (builtinOps ρ os 1).count = [0] := rfl
      rw [this] at h1
      rw [h1]
    rw [← e]
    simp only [newFiles, builtinOps, BWorld.on, hc, List.getElem?_cons_zero, Builtin.newFile, List.set_cons_zero]
    generalize c.newFile os a w.heap = z
    obtain ⟨(er | _), c', heap'⟩ := z
    · cases er <;> rfl
    · rfl
  feeds := by
    rintro w cs done n d x ⟨h, ⟨c, hc, ht⟩, hk⟩
    obtain ⟨cs', w', h1, h2⟩ := (builtin_stores (ρ := ρ) hos 1).feeds w cs done n d x h
    refine ⟨cs', w', h1, h2, ?_, hk⟩
    have : List.range (builtinOps ρ os 1).count = [0] := rfl
    rw [this] at h1
    simp only [feedChunk, builtinOps, BWorld.on, hc, List.getElem?_cons_zero, Builtin.receive, List.set_cons_zero] at h1
    generalize hz : c.receive os x w.heap = z at h1
    obtain ⟨(er | o), c', heap'⟩ := z
    · simp at h1
    · have := ht.receive hz
      rw [Nat.add_assoc, ← List.length_append] at this
      cases o with
      | none =>
        simp only [Prod.mk.injEq] at h1
        obtain ⟨_, _, rfl⟩ := h1
        exact ⟨c', rfl, this⟩
      | some o =>
        simp only [Prod.mk.injEq] at h1
        obtain ⟨_, _, rfl⟩ := h1
        exact ⟨c', rfl, this⟩
  completes := by
    rintro w cs done n d ⟨h, ⟨c, hc, ht⟩, hk⟩ hd
    obtain ⟨f, w', h1, h2⟩ := (builtin_stores (ρ := ρ) hos 1).completes w cs done n d h hd
    refine ⟨f, w', h1, h2, ?_⟩
    have : List.range (builtinOps ρ os 1).count = [0] := rfl
    rw [this] at h1
    simp only [completeLoop, builtinOps, BWorld.on, hc, List.getElem?_cons_zero, Builtin.fileComplete,
      List.set_cons_zero] at h1
    generalize hz : c.fileComplete (cs.getD 0 0) w.heap = z at h1
    obtain ⟨(er | o), c', heap'⟩ := z
    · simp at h1
    · cases o with
      | none => simp at h1
      | some o =>
        simp only at h1
        by_cases ho : o.size = 0
        · simp [ho] at h1
        · simp only [ne_eq, ho, not_false_eq_true, decide_true, if_true, Prod.mk.injEq, Except.ok.injEq,
            Option.some.injEq] at h1
          obtain ⟨rfl, rfl⟩ := h1
          obtain ⟨k1, k2⟩ := ht.complete hz
          refine ⟨⟨c', rfl, ?_⟩, hk.snoc k2⟩
          simpa [totalSize] using k1
  finishes := by
    rintro w done ⟨h, hc, hk⟩
    obtain ⟨w', h1, h2⟩ := (builtin_stores (ρ := ρ) hos 1).finishes w done h
    refine ⟨w', h1, h2, ?_, hk⟩
    have : List.range (builtinOps ρ os 1).count = [0] := rfl
    rw [this] at h1
    simp only [uploadCompleteLoop, builtinOps, Bool.false_eq_true, if_false, Prod.mk.injEq, true_and] at h1
    rw [← h1]
    exact hc

/-- The sizes of files before a certain one. -/
def Spec.sizeSum (files : List (Bytes × Bytes × Bytes)) : Nat := (files.map (fun x => x.2.2.length)).sum

/-- **C112, `ConvenientFileUploadHandler`** (the default): for every body that means something
(`Spec.Reads`), however it arrives and in whatever chunks it is read, the files of the result are those
of the body in their order, and a file is kept in memory exactly if it and the files before it together
have at most `FILE_UPLOAD_MAX_MEMORY_SIZE` bytes. -/
theorem C112_convenient {ρ : Type} [Producer ρ] {L : Lawful ρ} (C : Codecs) (S : Settings) (hM : 0 ≤ S.fileMaxMemory)
    (hq : emptyQueryDict C S = .ok ()) (os : Os) (hos : ∀ e, os.tempFile e = .ok ()) (fuel64 : Nat) (m : MultiPart)
    (hc : 1 ≤ m.chunkSize) (hl : m.contentLength ≠ 0) (heap : Heap)
    (input : LazyStream ρ) (hi : SOK L input) (hf : (L.sc input).length ≤ fuel64)
    (g : Ghost) (hb : Reads C S (b!"--" ++ m.boundary) (L.sc input) ⟨[], [], none, 0, 0⟩ (.ok g)) :
    ∃ us : List Uploaded, us.length = g.files.length ∧
      (m.parse C S (builtinOps ρ os 1) fuel64 input ⟨[.conv {}], heap⟩).1.toOption =
        some (g.post, (g.files.zip us).foldl (fun d p => MVD.append d p.1.1 p.2) []) ∧
      ∀ before x after, g.files = before ++ x :: after → ∃ u, us[before.length]? = some u ∧
        (u.inMemory = true ↔ ((sizeSum before + x.2.2.length : Nat) : Int) ≤ S.fileMaxMemory) := by
  have hraw := rawInputLoop_builtin (ρ := ρ) os 1 ⟨m.contentLength, m.boundary, S⟩ input heap [.conv {}] []
  simp only [List.length_nil, List.nil_append, ← List.range_eq_range', List.length_cons] at hraw
  rcases parse_spec (L := L) C S _ fuel64 m hc hl input input _ _ hraw hi with
    ⟨e', h1, h2⟩ | ⟨_, r, D', st', s', R, w', h1, h2, h3, _⟩
  · rw [hq] at h1; simp at h1
  · have ht : Takes S m.contentLength [.conv {}] := ⟨⟨.conv {}, by simp, trivial⟩, fun _ _ _ => hM⟩
    have habs : Abs (fun w done => BReady 1 w done ∧ OneConv S.fileMaxMemory (totalSize done) w ∧ KeptBy S.fileMaxMemory done)
        (fun w cs done n d => BBusy 1 w cs done n d ∧ OneConv S.fileMaxMemory (totalSize done + d.length) w ∧
          KeptBy S.fileMaxMemory done) (PState.start (builtinOps ρ os 1)
        ⟨[Builtin.conv {}].map (Builtin.rawInput ⟨m.contentLength, m.boundary, S⟩), heap⟩) ⟨[], [], none, 0, 0⟩ := by
      refine ⟨rfl, rfl, rfl, [], rfl, rfl, rfl, ht.ready _ _, ⟨_, rfl, rfl, rfl, ?_, ?_⟩, ?_⟩
      · simp [ConvH.rawInput, totalSize, Made.done, hM]
      · intro f hf
        simp [ConvH.rawInput] at hf
      · intro before p after e
        simp [Made.done] at e
    obtain ⟨rfl, _, ha⟩ := Parses.reads hb (conv_stores (ρ := ρ) hos S.fileMaxMemory) hf habs h2
    rw [h1]
    simp only [endParse] at h3
    rw [uploadCompleteLoop_builtin] at h3
    simp only [Prod.mk.injEq] at h3
    obtain ⟨rfl, rfl⟩ := h3
    obtain ⟨made, f1, f2, f3⟩ := ha.files
    have hk : KeptBy S.fileMaxMemory made.done := by
      cases ho : g.old with
      | none => rw [ho] at f3; exact f3.2.2.2
      | some o => rw [ho] at f3; exact f3.2.2.2.2.2
    refine ⟨made.map Prod.snd, by rw [← f1]; simp, ?_, ?_⟩
    · simp only [Except.toOption, Option.some.injEq, Prod.mk.injEq]
      refine ⟨ha.post, ?_⟩
      rw [f2, ← f1, List.zip_map']
      simp [Made.dict]
    · intro before x after e
      rw [← f1] at e
      obtain ⟨m1, m2, rfl, e1, e2⟩ := List.map_eq_append_iff.1 e
      obtain ⟨p, m3, rfl, e3, e4⟩ := List.map_eq_cons_iff.1 e2
      subst e1 e3
      refine ⟨p.2, by simp, ?_⟩
      have := hk (Made.done m1) (p.1.2.1, p.2, p.1.2.2) (Made.done m3) (by simp [Made.done])
      rw [this]
      simp [totalSize, sizeSum, Made.done, Function.comp_def]

/-- Two files of three and four bytes. -/
def keptBody : Bytes :=
  renderForm b!"B" [.file b!"f" b!"a" b!"t/p" b!"xyz", .file b!"g" b!"b" b!"t/p" b!"1234"]

/-- Where the files are, for the announced length, the limit and the handlers. -/
def keptRun (len : Nat) (limit : Int) (hs : List Builtin) : Option (List (Bytes × List Bool)) :=
  ((⟨b!"B", 7, len⟩ : MultiPart).parse latinCodecs { fileMaxMemory := limit } (builtinOps Source goodOs hs.length) 1000
    (LazyStream.mk' ⟨[keptBody]⟩) ⟨hs, []⟩).1.toOption.map (fun r => r.2.map (fun q => (q.1, q.2.map (·.inMemory))))

-- both files in memory up to the limit of the whole request
example : keptRun 300 300 [.memory {}, .temp {}] = some [(b!"f", [true]), (b!"g", [true])] := by decide +kernel
example : keptRun 301 300 [.memory {}, .temp {}] = some [(b!"f", [false]), (b!"g", [false])] := by decide +kernel
-- the files are counted together
example : keptRun 300 7 [.conv {}] = some [(b!"f", [true]), (b!"g", [true])] := by decide +kernel
example : keptRun 300 6 [.conv {}] = some [(b!"f", [true]), (b!"g", [false])] := by decide +kernel
example : keptRun 300 2 [.conv {}] = some [(b!"f", [false]), (b!"g", [false])] := by decide +kernel

/-- The hypotheses of `C112_convenient` can be met. -/
example (k : Nat) (hk : 1 ≤ k) (cs : List Bytes) (h : cs.flatten = settledBody) :=
  C112_convenient (L := Source.lawful) latinCodecs {} (by decide) rfl goodOs (fun _ => rfl) 1000 ⟨b!"B", k, 1000⟩ hk
    (by simp) [] (LazyStream.mk' ⟨cs⟩) (SOK.fresh cs) (by rw [sc_fresh, h]; decide +kernel) _ (by
      rw [sc_fresh, h]; exact settledBody_reads)

end Verif
