import Verif.Props.Files
import Verif.Props.Trace
/-!
# Handlers that refuse files (C100, C101)
-/

namespace Verif
open Spec

/-- The handlers `H` behind a handler that refuses files: its `new_file` raises what `gate` says, its
`receive_data_chunk` returns the data unchanged, its other methods return `None`, it has no attribute `file`
(an own subclass of `FileUploadHandler`, `files/uploadhandler.py:57-122`). -/
def gated {ρ σ F : Type} (gate : NewFileArgs → Option Exc) (H : HandlerOps ρ σ F) : HandlerOps ρ σ F where
  count := H.count + 1
  chunkSize i := match i with
    | 0 => some (64 * 2 ^ 10)
    | i + 1 => H.chunkSize i
  rawInput i a s w := match i with
    | 0 => (.ok none, s, w)
    | i + 1 => H.rawInput i a s w
  newFile i a w := match i with
    | 0 => match gate a with
      | none => (.ok (), w)
      | some e => (.error e, w)
    | i + 1 => H.newFile i a w
  receive i d n w := match i with
    | 0 => (.ok (some d), w)
    | i + 1 => H.receive i d n w
  fileComplete i n w := match i with
    | 0 => (.ok none, w)
    | i + 1 => H.fileComplete i n w
  truthy := H.truthy
  uploadComplete i w := match i with
    | 0 => (.ok false, w)
    | i + 1 => H.uploadComplete i w
  close i w := match i with
    | 0 => (.ok (), w)
    | i + 1 => H.close i w

/-- What reading a body comes to when files may be refused. -/
inductive Spec.Outcome where
  /-- The whole body has been read. -/
  | read (g : Ghost)
  /-- The upload has been stopped; nothing more is read if the connection is to be reset. -/
  | stopped (g : Ghost) (reset : Bool)
  | failed (e : Exc)

/-- The part is not a file, or a file that `gate` lets pass. -/
def Spec.Passes (gate : NewFileArgs → Option Exc) (t : ItemType) (md : MetaData) : Prop :=
  ∀ d n name fn, t = .file → partName md = some (d, n) → forceText n.strip = .ok name →
    dispositionFileName d = .ok fn → fn ≠ [] → gate (fileArgs name fn (transferEnc md) md) = none

/-- The part is a file for which `gate` says `e`. -/
def Spec.Refused (gate : NewFileArgs → Option Exc) (t : ItemType) (md : MetaData) (e : Exc) : Prop :=
  ∃ d n name fn, t = .file ∧ partName md = some (d, n) ∧ forceText n.strip = .ok name ∧
    dispositionFileName d = .ok fn ∧ fn ≠ [] ∧ gate (fileArgs name fn (transferEnc md) md) = some e

/-- What a body means (`Spec.Reads`) when files may be refused. -/
inductive Spec.ReadsGated (C : Codecs) (S : Settings) (sep : Bytes) (gate : NewFileArgs → Option Exc) :
    Bytes → Ghost → Outcome → Prop where
  | done {g} : ReadsGated C S sep gate [] g (.read g)
  | rest {D g} : D ≠ [] → ¬ sep <:+: D → ¬ b!"\r\n\r\n" <:+: D → ReadsGated C S sep gate D g (.read g.close)
  | bad {D g e} : D ≠ [] → HeadErr C (cut sep D) e → ReadsGated C S sep gate D g (.failed e)
  | partErr {D g t md content e} : D ≠ [] → PartHead C (cut sep D) t md content → Passes gate t md →
      PartReads C S t md content ((cut sep D).length < 1024) g.close (.error e) → ReadsGated C S sep gate D g (.failed e)
  | part {D g g' t md content res} : D ≠ [] → PartHead C (cut sep D) t md content → Passes gate t md →
      PartReads C S t md content ((cut sep D).length < 1024) g.close (.ok g') →
      ReadsGated C S sep gate (after sep D) g' res → ReadsGated C S sep gate D g res
  /-- A file that is skipped adds nothing. -/
  | skip {D g t md content res} : D ≠ [] → PartHead C (cut sep D) t md content → Refused gate t md .skipFile →
      ReadsGated C S sep gate (after sep D) g.close res → ReadsGated C S sep gate D g res
  /-- What was read before counts. -/
  | stop {D g t md content b} : D ≠ [] → PartHead C (cut sep D) t md content → Refused gate t md (.stopUpload b) →
      ReadsGated C S sep gate D g (.stopped g.close b)
  /-- Any other exception ends the parsing. -/
  | fail {D g t md content e} : D ≠ [] → PartHead C (cut sep D) t md content → Refused gate t md e →
      e ≠ .skipFile → (∀ b, e ≠ .stopUpload b) → e ≠ .stopFutureHandlers → ReadsGated C S sep gate D g (.failed e)

section
variable {ρ σ F : Type} {H : HandlerOps ρ σ F} {Ready : σ → List (Bytes × F × Bytes) → Prop}
  {Busy : σ → List Nat → List (Bytes × F × Bytes) → Bytes → Bytes → Prop} {gate : NewFileArgs → Option Exc}

theorem newFiles_gated (a : NewFileArgs) : ∀ (is : List Nat) (w : σ),
    newFiles (gated gate H) a (is.map (· + 1)) w = newFiles H a is w
  | [], _ => rfl
  | i :: is, w => by
    simp only [List.map_cons, newFiles, gated]
    rcases H.newFile i a w with ⟨e | _, w'⟩
    · cases e <;> rfl
    · exact newFiles_gated a is w'

theorem feedChunk_gated : ∀ (is : List Nat) (d : Bytes) (c0 : Nat) (cs : List Nat) (w : σ),
    feedChunk (gated gate H) (is.map (· + 1)) d (c0 :: cs) w =
      ((feedChunk H is d cs w).1, c0 :: (feedChunk H is d cs w).2.1, (feedChunk H is d cs w).2.2)
  | [], _, _, _, _ => rfl
  | i :: is, d, c0, cs, w => by
    simp only [List.map_cons, feedChunk, gated, List.getD_cons_succ, List.set_cons_succ]
    rcases H.receive i d (cs.getD i 0) w with ⟨e | _ | d', w'⟩
    · rfl
    · rfl
    · exact feedChunk_gated is d' c0 _ w'

theorem completeLoop_gated : ∀ (is : List Nat) (c0 : Nat) (cs : List Nat) (w : σ),
    completeLoop (gated gate H) (c0 :: cs) (is.map (· + 1)) w = completeLoop H cs is w
  | [], _, _, _ => rfl
  | i :: is, c0, cs, w => by
    simp only [List.map_cons, completeLoop, gated, List.getD_cons_succ]
    rcases H.fileComplete i (cs.getD i 0) w with ⟨e | _ | f, w'⟩
    · rfl
    · exact completeLoop_gated is c0 cs w'
    · have := completeLoop_gated is c0 cs w'
      simp only [gated] at this
      simp only [this]

theorem closeFiles_gated : ∀ (is : List Nat) (w : σ),
    closeFiles (gated gate H) (is.map (· + 1)) w = closeFiles H is w
  | [], _ => rfl
  | i :: is, w => by
    simp only [List.map_cons, closeFiles, gated]
    rcases H.close i w with ⟨e | _, w'⟩
    · rfl
    · exact closeFiles_gated is w'

theorem uploadCompleteLoop_gated : ∀ (is : List Nat) (w : σ),
    uploadCompleteLoop (gated gate H) (is.map (· + 1)) w = uploadCompleteLoop H is w
  | [], _ => rfl
  | i :: is, w => by
    simp only [List.map_cons, uploadCompleteLoop, gated]
    rcases H.uploadComplete i w with ⟨e | b, w'⟩
    · rfl
    · have := uploadCompleteLoop_gated is w'
      simp only [gated] at this
      simp only [this]

theorem rawInputLoop_gated (a : RawArgs) : ∀ (is : List Nat) (s : LazyStream ρ) (w : σ),
    rawInputLoop (gated gate H) a (is.map (· + 1)) s w = rawInputLoop H a is s w
  | [], _, _ => rfl
  | i :: is, s, w => by
    simp only [List.map_cons, rawInputLoop, gated]
    rcases H.rawInput i a s w with ⟨e | _ | x, s', w'⟩
    · rfl
    · exact rawInputLoop_gated a is s' w'
    · rfl

theorem range_gated : List.range (gated gate H).count = 0 :: (List.range H.count).map (· + 1) := by
  show List.range (H.count + 1) = _
  rw [List.range_succ_eq_map]

/-- The state of the handlers while a file is open. -/
def BusyGated (Busy : σ → List Nat → List (Bytes × F × Bytes) → Bytes → Bytes → Prop) (w : σ) (cs : List Nat)
    (done : List (Bytes × F × Bytes)) (n d : Bytes) : Prop :=
  ∃ c0 cs', cs = c0 :: cs' ∧ Busy w cs' done n d

theorem gated_stores (hs : Stores H Ready Busy) :
    Stores (gated gate H) Ready (BusyGated Busy) (fun a => gate a = none) where
  opens := by
    intro w done a ha hw
    obtain ⟨w', h1, h2⟩ := hs.opens w done a trivial hw
    refine ⟨w', ?_, 0, List.replicate H.count 0, rfl, h2⟩
    rw [range_gated]
    unfold newFiles
    simp only [gated, ha]
    exact (newFiles_gated a _ w).trans h1
  feeds := by
    rintro w cs done n d c ⟨c0, cs', rfl, h⟩
    obtain ⟨cs2, w2, h1, h2⟩ := hs.feeds w cs' done n d c h
    refine ⟨(c0 + c.length) :: cs2, w2, ?_, c0 + c.length, cs2, rfl, h2⟩
    rw [range_gated]
    unfold feedChunk
    simp only [gated, List.getD_cons_zero, List.set_cons_zero]
    refine (feedChunk_gated _ c (c0 + c.length) cs' w).trans ?_
    rw [h1]
  completes := by
    rintro w cs done n d ⟨c0, cs', rfl, h⟩ hd
    obtain ⟨f, w', h1, h2⟩ := hs.completes w cs' done n d h hd
    refine ⟨f, w', ?_, h2⟩
    rw [range_gated]
    unfold completeLoop
    simp only [gated]
    exact (completeLoop_gated _ c0 cs' w).trans h1
  finishes := by
    intro w done h
    obtain ⟨w', h1, h2⟩ := hs.finishes w done h
    refine ⟨w', ?_, h2⟩
    rw [range_gated]
    unfold uploadCompleteLoop
    simp only [gated, Bool.false_eq_true, if_false]
    exact (uploadCompleteLoop_gated _ w).trans h1

/-- The parser ends with `r` and `st'` as the outcome says. -/
def GatedOut (Ready : σ → List (Bytes × F × Bytes) → Prop)
    (Busy : σ → List Nat → List (Bytes × F × Bytes) → Bytes → Bytes → Prop) (r : Except Exc Unit)
    (st' : PState σ F) : Outcome → Prop
  | .read g => r = .ok () ∧ Abs Ready Busy st' g
  | .stopped g b => r = .error (.stopUpload b) ∧ Abs Ready Busy st' g ∧ g.old = none
  | .failed e => r = .error e ∧ ∀ b, e ≠ .stopUpload b

theorem newFiles_refused {a : NewFileArgs} {e : Exc} (h : gate a = some e) (he : e ≠ .stopFutureHandlers) (w : σ) :
    newFiles (gated gate H) a (List.range (gated gate H).count) w = (.error e, w) := by
  rw [range_gated]
  unfold newFiles
  simp only [gated, h]

theorem RecvRun.refused_inv {fuel64 : Nat} {a : NewFileArgs} {content : Bytes} {w w' : σ} {r : Except Exc Unit}
    {cs : List Nat} {e : Exc} (h : RecvRun (gated gate H) fuel64 a content w r cs w') (hg : gate a = some e)
    (he : e ≠ .stopFutureHandlers) : r = .error e ∧ w' = w := by
  have k := newFiles_refused (H := H) hg he w
  cases h with
  | refused h =>
    rw [k] at h
    cases h
    exact ⟨rfl, rfl⟩
  | fed h => rw [k] at h; cases h

theorem PartReads.no_stop {C : Codecs} {S : Settings} {t : ItemType} {md : MetaData} {content : Bytes} {short : Prop}
    {g : Ghost} {e : Exc} (h : PartReads C S t md content short g (.error e)) : ∀ b, e ≠ .stopUpload b := by
  intro b
  cases h with
  | badName _ h => rw [forceText_err h]; simp
  | tooMany => simp
  | tooBig => simp
  | badFile _ _ _ h => rcases dispositionFileName_err h with rfl | rfl <;> simp

theorem Parses.reads_gated {C : Codecs} (hC : ∀ b, C.Avoids (.stopUpload b)) {S : Settings} {sep : Bytes} {D : Bytes}
    {g : Ghost} {res : Outcome} (hD : ReadsGated C S sep gate D g res) (hs : Stores H Ready Busy)
    (hcl : ∀ w done, Ready w done → ∃ w', closeFiles H (List.range H.count) w = (.ok (), w') ∧ Ready w' done)
    {fuel64 : Nat} {st st' : PState σ F} {r : Except Exc Unit}
    {D' : Bytes} (hf : D.length ≤ fuel64) (ha : Abs Ready (BusyGated Busy) st g)
    (hp : Parses C S (gated gate H) fuel64 sep D st r D' st') :
    GatedOut Ready (BusyGated Busy) r st' res := by
  induction hD generalizing st with
  | done =>
    obtain ⟨rfl, rfl⟩ := hp.nil_inv
    exact ⟨rfl, ha⟩
  | @rest D g h0 h1 h2 =>
    have := Parses.rest_ghost (gated_stores hs) D.length D st g (le_refl _) h1 h2 ha hp
    rw [if_neg h0] at this
    exact this
  | @bad D g e h1 h2 =>
    obtain ⟨i, k1, k2⟩ := h2
    have hne : ∀ b, e ≠ .stopUpload b := by
      rintro b rfl
      exact partHeaders_no_err (hC b) _ _ _ k2
    cases hp with
    | done => exact absurd rfl h1
    | headErr _ h _ =>
      obtain ⟨i', k1', k2'⟩ := h
      rw [k1] at k1'
      simp only [Option.some.injEq] at k1'
      subst k1'
      rw [k2] at k2'
      simp only [Except.error.injEq] at k2'
      rw [← k2']; exact ⟨rfl, hne⟩
    | partErr _ h => exact absurd ⟨i, k1, k2⟩ (h.no_err e)
    | part _ h => exact absurd ⟨i, k1, k2⟩ (h.no_err e)
  | @partErr D g t md content e h1 h2 h3 h4 =>
    have hcl : (cut sep D).length ≤ D.length := (cut_prefix sep D).length_le
    obtain ⟨t', md', content', b, r1, D1, st1, e1, e2, e3, e4⟩ := hp.step_inv h1 h2.no_err
    obtain ⟨rfl, rfl, rfl⟩ := h2.unique e1
    have := PartRun.reads h4 (gated_stores hs) h3 (fun ht => by have := h2.length ht; omega) ha e2
    simp only [PartOut] at this
    subst this
    rcases e4 with ⟨e, he, he2, _⟩ | ⟨he, _⟩
    · simp only [Except.error.injEq] at he
      rw [he2, ← he]
      exact ⟨rfl, PartReads.no_stop h4⟩
    · simp at he
  | @part D g g1 t md content res h1 h2 h3 h4 _ ih =>
    have hcl : (cut sep D).length ≤ D.length := (cut_prefix sep D).length_le
    have hal : (after sep D).length ≤ D.length := by
      unfold after; split <;> simp
    obtain ⟨t', md', content', b, r1, D1, st1, e1, e2, e3, e4⟩ := hp.step_inv h1 h2.no_err
    obtain ⟨rfl, rfl, rfl⟩ := h2.unique e1
    obtain ⟨rfl, j2, j3⟩ := PartRun.reads h4 (gated_stores hs) h3 (fun ht => by have := h2.length ht; omega) ha e2
    rcases e4 with ⟨e, he, he2, _⟩ | ⟨_, _, q2, q3⟩
    · simp at he
    · rw [q2 j2] at q3
      exact ih (by omega) j3 q3
  | @skip D g t md content res h1 h2 h3 _ ih =>
    have hal : (after sep D).length ≤ D.length := by
      unfold after; split <;> simp
    obtain ⟨t', md', content', b, r1, D1, st1, e1, e2, e3, e4⟩ := hp.step_inv h1 h2.no_err
    obtain ⟨rfl, rfl, rfl⟩ := h2.unique e1
    obtain ⟨d, n, name, fn, a1, a2, a3, a4, a5, a6⟩ := h3
    obtain ⟨st2, c1, c2⟩ := ha.complete (gated_stores hs)
    obtain ⟨r0, cs, w, k1, k2⟩ := e2.file_inv c1 a2 a3 a1 a4 a5
    obtain ⟨rfl, rfl⟩ := k1.refused_inv a6 (by simp)
    obtain ⟨m, m1, m2, m3⟩ := c2.files
    obtain ⟨w2, l1, l2⟩ := hcl _ _ m3.2
    have l1' : closeFiles (gated gate H) (List.range (gated gate H).count) st2.world = (.ok (), w2) := by
      rw [range_gated]
      unfold closeFiles
      exact (closeFiles_gated _ _).trans l1
    rcases k2 with ⟨h, _⟩ | ⟨_, w', q1, q2, q3⟩ | ⟨e, h, h', _⟩
    · cases h
    · rw [l1'] at q1
      cases q1
      subst q3
      rcases e4 with ⟨e, he, he2, _⟩ | ⟨_, _, q4, q5⟩
      · simp at he
      · rw [q4 (.inl (by rw [q2]; simp))] at q5
        have habs : Abs Ready (BusyGated Busy) { st2 with world := w2, counters := cs } g.close :=
          ⟨c2.post, c2.bytes, c2.keys, m, m1, m2, m3.1, l2⟩
        exact ih (by omega) habs q5
    · cases h; exact absurd rfl h'
  | @stop D g t md content b h1 h2 h3 =>
    obtain ⟨t', md', content', b', r1, D1, st1, e1, e2, e3, e4⟩ := hp.step_inv h1 h2.no_err
    obtain ⟨rfl, rfl, rfl⟩ := h2.unique e1
    obtain ⟨d, n, name, fn, a1, a2, a3, a4, a5, a6⟩ := h3
    obtain ⟨st2, c1, c2⟩ := ha.complete (gated_stores hs)
    obtain ⟨r0, cs, w, k1, k2⟩ := e2.file_inv c1 a2 a3 a1 a4 a5
    obtain ⟨rfl, rfl⟩ := k1.refused_inv a6 (by simp)
    obtain ⟨m, m1, m2, m3⟩ := c2.files
    rcases k2 with ⟨h, _⟩ | ⟨h, _⟩ | ⟨e, h, _, q1, q2, q3⟩
    · cases h
    · cases h
    · cases h
      subst q1
      rcases e4 with ⟨e, he, he2, he3⟩ | ⟨he, _⟩
      · cases he
        rw [he2, he3, q3]
        exact ⟨rfl, ⟨c2.post, c2.bytes, c2.keys, m, m1, m2, m3⟩, rfl⟩
      · cases he
  | @fail D g t md content e h1 h2 h3 h4 h5 h6 =>
    obtain ⟨t', md', content', b', r1, D1, st1, e1, e2, e3, e4⟩ := hp.step_inv h1 h2.no_err
    obtain ⟨rfl, rfl, rfl⟩ := h2.unique e1
    obtain ⟨d, n, name, fn, a1, a2, a3, a4, a5, a6⟩ := h3
    obtain ⟨st2, c1, c2⟩ := ha.complete (gated_stores hs)
    obtain ⟨r0, cs, w, k1, k2⟩ := e2.file_inv c1 a2 a3 a1 a4 a5
    obtain ⟨rfl, rfl⟩ := k1.refused_inv a6 h6
    rcases k2 with ⟨h, _⟩ | ⟨h, _⟩ | ⟨e, h, _, q1, q2, q3⟩
    · cases h
    · cases h; exact absurd rfl h4
    · cases h
      subst q1
      rcases e4 with ⟨e, he, he2, he3⟩ | ⟨he, _⟩
      · cases he
        rw [he2]
        exact ⟨rfl, h5⟩
      · cases he

/-- Invariants of the handlers can be added. -/
theorem Stores.with_inv {I : σ → Prop} {Q : F → Prop} (hs : Stores H Ready Busy) (hk : H.Keeps I Q (fun _ => True)) :
    Stores H (fun w done => Ready w done ∧ I w) (fun w cs done n d => Busy w cs done n d ∧ I w) where
  opens := by
    rintro w done a - ⟨h, hI⟩
    obtain ⟨w', h1, h2⟩ := hs.opens w done a trivial h
    have := newFiles_keeps hk (a := a) trivial w hI
    rw [h1] at this
    exact ⟨w', h1, h2, this⟩
  feeds := by
    rintro w cs done n d c ⟨h, hI⟩
    obtain ⟨cs', w', h1, h2⟩ := hs.feeds w cs done n d c h
    have := feedChunk_keeps hk (List.range H.count) c cs w hI
    rw [h1] at this
    exact ⟨cs', w', h1, h2, this⟩
  completes := by
    rintro w cs done n d ⟨h, hI⟩ hd
    obtain ⟨f, w', h1, h2⟩ := hs.completes w cs done n d h hd
    have := (completeLoop_keeps hk cs (List.range H.count) w hI).1
    rw [h1] at this
    exact ⟨f, w', h1, h2, this⟩
  finishes := by
    rintro w done ⟨h, hI⟩
    obtain ⟨w', h1, h2⟩ := hs.finishes w done h
    have := uploadCompleteLoop_keeps hk (List.range H.count) w hI
    rw [h1] at this
    exact ⟨w', h1, h2, this⟩

end

/-! ### Convenient handlers behind the gate -/

/-- All handlers are `ConvenientFileUploadHandler`s. -/
def AllConv (hs : List Builtin) : Prop := ∀ b ∈ hs, ∃ h, b = .conv h

theorem AllConv.set {hs : List Builtin} (h : AllConv hs) (i : Nat) (c : ConvH) : AllConv (hs.set i (.conv c)) := by
  intro b hb
  rcases List.mem_or_eq_of_mem_set hb with hb | rfl
  · exact h b hb
  · exact ⟨c, rfl⟩

theorem AllConv.on {α : Type} {w : BWorld} (h : AllConv w.hs) (i : Nat) (f : Builtin → Heap → Res (Builtin × Heap) α)
    (hf : ∀ c heap, ∃ c', (f (.conv c) heap).2.1 = .conv c') : AllConv (w.on i f).2.hs := by
  unfold BWorld.on
  cases hb : w.hs[i]? with
  | none => exact h
  | some b =>
    obtain ⟨c, rfl⟩ := h b (List.mem_of_getElem? hb)
    obtain ⟨c', hc⟩ := hf c w.heap
    simp only
    rcases hz : f (.conv c) w.heap with ⟨r, b', heap'⟩
    rw [hz] at hc
    simp only at hc
    subst hc
    exact h.set i c'

theorem conv_keeps (ρ : Type) (os : Os) (N : Nat) :
    (builtinOps ρ os N).Keeps (fun w => AllConv w.hs) (fun _ => True) (fun _ => True) where
  newFiles := newFiles_of_newFile fun i a w h _ => h.on i _ fun c heap => ⟨_, rfl⟩
  receive i d n w h := h.on i _ fun c heap => ⟨_, rfl⟩
  fileComplete i n w h := h.on i _ fun c heap => ⟨_, rfl⟩
  complete _ _ _ _ _ _ := trivial
  uploadComplete i w h := h
  close i w h := h.on i _ fun c heap => ⟨_, rfl⟩

/-- Closing does nothing to them. -/
theorem closeFiles_conv (ρ : Type) (os : Os) (N : Nat) (w : BWorld) (h : AllConv w.hs) :
    ∀ is : List Nat, (∀ i ∈ is, i < w.hs.length) → closeFiles (builtinOps ρ os N) is w = (.ok (), w)
  | [], _ => rfl
  | i :: is, hi => by
    have hlt := hi i (by simp)
    obtain ⟨c, hc⟩ := h _ (List.getElem_mem hlt)
    have : (builtinOps ρ os N).close i w = (.ok (), w) := by
      simp only [builtinOps, BWorld.on, List.getElem?_eq_getElem hlt, hc, Builtin.close]
      rw [← hc, List.set_getElem_self]
    rw [closeFiles, this]
    exact closeFiles_conv ρ os N w h is (fun j hj => hi j (by simp [hj]))

/-- What is seen of an outcome. -/
def Spec.Outcome.view : Outcome → Except Exc (MVD PostItem × MVD (Bytes × Nat × Option Bytes))
  | .read g => .ok g.view
  | .stopped g _ => .ok g.view
  | .failed e => .error e

/-- **C100 and C101, the part that holds**: behind a handler that refuses files, with
`ConvenientFileUploadHandler`s, the visible result is what the body means when files may be refused
(`Spec.ReadsGated`): a file for which `SkipFile` is raised adds nothing and changes nothing else,
`StopUpload` ends the parsing with exactly what was read before, any other exception passes through.  Unless
the connection is to be reset, the input is read to its end.  Missing: the other built-in handlers
(`C100_refuted`, `C101_refuted`). -/
theorem C100_gated_partial {ρ : Type} [Producer ρ] {L : Lawful ρ} (C : Codecs) (hC : ∀ b, C.Avoids (.stopUpload b))
    (S : Settings) (hq : emptyQueryDict C S = .ok ()) (gate : NewFileArgs → Option Exc)
    (os : Os) (hos : ∀ e, os.tempFile e = .ok ()) (fuel64 : Nat) (m : MultiPart) (hc : 1 ≤ m.chunkSize)
    (hl : m.contentLength ≠ 0) (hs : List Builtin) (hv : AllConv hs) (heap : Heap) (ht : Takes S m.contentLength hs)
    (input : LazyStream ρ) (hi : SOK L input) (hf : (L.sc input).length ≤ fuel64)
    (res : Outcome) (hb : ReadsGated C S (b!"--" ++ m.boundary) gate (L.sc input) ⟨[], [], none, 0, 0⟩ res) :
    ∃ R s' w', m.parse C S (gated gate (builtinOps ρ os hs.length)) fuel64 input ⟨hs, heap⟩ = (R, s', w') ∧
      viewOf R w'.heap = res.view ∧
      (∀ g, res = .read g ∨ res = .stopped g false → L.sc s' = []) := by
  have hraw := rawInputLoop_builtin (ρ := ρ) os hs.length ⟨m.contentLength, m.boundary, S⟩ input heap hs []
  simp only [List.length_nil, List.nil_append, ← List.range_eq_range'] at hraw
  have hraw' : rawInputLoop (gated gate (builtinOps ρ os hs.length)) ⟨m.contentLength, m.boundary, S⟩
      (List.range (gated gate (builtinOps ρ os hs.length)).count) input ⟨hs, heap⟩ =
      (.ok none, input, ⟨hs.map (Builtin.rawInput ⟨m.contentLength, m.boundary, S⟩), heap⟩) := by
    rw [range_gated]
    unfold rawInputLoop
    exact (rawInputLoop_gated _ _ _ _).trans hraw
  have hst := (builtin_stores (ρ := ρ) hos hs.length).with_inv (conv_keeps ρ os hs.length)
  have hcl : ∀ (w : BWorld) done, (BReady hs.length w done ∧ AllConv w.hs) →
      ∃ w', closeFiles (builtinOps ρ os hs.length) (List.range (builtinOps ρ os hs.length).count) w = (.ok (), w') ∧
        (BReady hs.length w' done ∧ AllConv w'.hs) := by
    intro w done h
    obtain ⟨⟨mid, b, post, hH⟩, _⟩ := h.1
    refine ⟨w, closeFiles_conv ρ os _ w h.2 _ (fun i hi => ?_), h⟩
    rw [hH.count]
    exact List.mem_range.1 hi
  rcases parse_spec_stop (L := L) C S _ fuel64 m hc hl input input _ _ hraw' hi with
    ⟨e', h1, h2⟩ | ⟨_, r, D', st', s', R, w', h1, h2, h3, h4, h5⟩
  · rw [hq] at h1; simp at h1
  have habs : Abs (fun w done => BReady hs.length w done ∧ AllConv w.hs)
      (BusyGated fun w cs done n d => BBusy hs.length w cs done n d ∧ AllConv w.hs)
      (PState.start (gated gate (builtinOps ρ os hs.length))
        ⟨hs.map (Builtin.rawInput ⟨m.contentLength, m.boundary, S⟩), heap⟩) ⟨[], [], none, 0, 0⟩ := by
    refine ⟨rfl, rfl, rfl, [], rfl, rfl, rfl, ht.ready _ _, ?_⟩
    intro b hb
    obtain ⟨b0, hb0, rfl⟩ := List.mem_map.1 hb
    obtain ⟨c, rfl⟩ := hv b0 hb0
    exact ⟨_, rfl⟩
  have hout := Parses.reads_gated hC hb hst hcl hf habs h2
  refine ⟨R, s', w', h1, ?_⟩
  have hup : ∀ w, uploadCompleteLoop (gated gate (builtinOps ρ os hs.length))
      (List.range (gated gate (builtinOps ρ os hs.length)).count) w = (.ok (), w) := by
    intro w
    rw [range_gated]
    unfold uploadCompleteLoop
    exact (uploadCompleteLoop_gated _ w).trans (uploadCompleteLoop_builtin _ _ w)
  have hview : ∀ (g : Ghost), Abs (fun w done => BReady hs.length w done ∧ AllConv w.hs)
      (BusyGated fun w cs done n d => BBusy hs.length w cs done n d ∧ AllConv w.hs) st' g →
      viewOf (.ok (st'.post, st'.files)) st'.world.heap = .ok g.view := by
    intro g ha
    obtain ⟨made, f1, f2, f3⟩ := ha.files
    have hst : Stored st'.world.heap made.done := by
      cases ho : g.old with
      | none => rw [ho] at f3; exact f3.2.1.2
      | some o =>
        rw [ho] at f3
        obtain ⟨_, _, _, c0, cs', _, f4, _⟩ := f3
        exact f4.1
    simp only [viewOf, Except.map, Ghost.view, Except.ok.injEq, Prod.mk.injEq]
    refine ⟨ha.post, ?_⟩
    rw [f2, Made.view made hst, f1]
  cases res with
  | read g =>
    obtain ⟨rfl, ha⟩ := hout
    simp only [endParse, hup, Prod.mk.injEq] at h3
    obtain ⟨rfl, rfl⟩ := h3
    exact ⟨hview g ha, fun _ _ => (h4 rfl).2.1⟩
  | stopped g b =>
    obtain ⟨rfl, ha, ho⟩ := hout
    obtain ⟨made, f1, f2, f3⟩ := ha.files
    rw [ho] at f3
    obtain ⟨⟨mid, bb, post, hH⟩, _⟩ := f3.2.1
    have hcl' : closeFiles (gated gate (builtinOps ρ os hs.length))
        (List.range (gated gate (builtinOps ρ os hs.length)).count) st'.world = (.ok (), st'.world) := by
      rw [range_gated]
      unfold closeFiles
      refine (closeFiles_gated _ _).trans (closeFiles_conv ρ os _ _ f3.2.2 _ fun i hi => ?_)
      rw [hH.count]
      exact List.mem_range.1 hi
    simp only [endParse, hcl', hup, Prod.mk.injEq] at h3
    obtain ⟨rfl, rfl⟩ := h3
    refine ⟨hview g ha, fun g' h => ?_⟩
    rcases h with h | h
    · cases h
    · cases h; exact (h5 rfl _ rfl).1
  | failed e =>
    obtain ⟨rfl, hne⟩ := hout
    have h3' : R = .error e := by
      cases e <;> first | (simp only [endParse, Prod.mk.injEq] at h3; exact h3.1.symm) | exact absurd rfl (hne _)
    refine ⟨by rw [h3']; rfl, ?_⟩
    rintro g (h | h) <;> cases h

/-! ### The other handlers -/

/-- A file `f` with the content `hello`, then a file `s`. -/
def twoFiles : Bytes :=
  b!"--B\r\nContent-Disposition: form-data; name=\"f\"; filename=\"a\"\r\n\r\nhello\r\n--B\r\nContent-Disposition: form-data; name=\"s\"; filename=\"b\"\r\n\r\nxyz\r\n--B--\r\n"

/-- Raise `e` for files of the field `s`. -/
def refuseS (e : Exc) (a : NewFileArgs) : Option Exc := if a.fieldName = b!"s" then some e else none

/-- The files of `twoFiles` behind `refuseS e`: field name, file name, size, content if it can be read. -/
def filesBehind (e : Exc) (hs : List Builtin) : Except Exc (List (Bytes × Bytes × Nat × Option Bytes)) :=
  let r := (⟨b!"B", 65536, 100⟩ : MultiPart).parse latinCodecs {} (gated (refuseS e) (builtinOps Source goodOs hs.length)) 0
    (LazyStream.mk' ⟨[twoFiles]⟩) ⟨hs, []⟩
  r.1.map fun p => (items p.2).map fun q => (q.1, Uploaded.view r.2.2.heap q.2)

/-- **C100 is false**: skipping one file closes the file before it, which was complete: its content is lost, with
`MemoryFileUploadHandler` as with `TemporaryFileUploadHandler`. -/
theorem C100_refuted :
    (filesBehind .skipFile [.conv {}]).toOption = some [(b!"f", b!"a", 5, some b!"hello")] ∧
    (filesBehind .skipFile [.memory {}]).toOption = some [(b!"f", b!"a", 5, none)] ∧
    (filesBehind .skipFile [.temp {}]).toOption = some [(b!"f", b!"a", 5, none)] := by
  refine ⟨?_, ?_, ?_⟩ <;> decide +kernel

/-- **C101 is false** in the same way: stopping the upload closes the last complete file. -/
theorem C101_refuted :
    (filesBehind (.stopUpload false) [.conv {}]).toOption = some [(b!"f", b!"a", 5, some b!"hello")] ∧
    (filesBehind (.stopUpload false) [.memory {}]).toOption = some [(b!"f", b!"a", 5, none)] ∧
    (filesBehind (.stopUpload true) [.temp {}]).toOption = some [(b!"f", b!"a", 5, none)] := by
  refine ⟨?_, ?_, ?_⟩ <;> decide +kernel

/-- What `twoFiles` means if `s` is skipped. -/
theorem twoFiles_reads : ReadsGated latinCodecs {} (b!"--" ++ b!"B") (refuseS .skipFile) twoFiles ⟨[], [], none, 0, 0⟩
    (.read ⟨[], [(b!"f", b!"a", b!"hello")], none, 0, 0⟩) := by
  refine .part (t := .raw) (md := []) (content := []) (by decide +kernel) ?_ (by intro _ _ _ _ h; cases h)
    (.unnamed rfl (by decide +kernel)) ?_
  · have : cut (b!"--" ++ b!"B") twoFiles = [] := by decide +kernel
    rw [this]; exact .noHeader (by decide +kernel)
  have h1 : after (b!"--" ++ b!"B") twoFiles = twoFiles.drop 3 := by decide +kernel
  rw [h1]
  have c1 : cut (b!"--" ++ b!"B") (twoFiles.drop 3) =
      b!"\r\nContent-Disposition: form-data; name=\"f\"; filename=\"a\"\r\n\r\nhello" := by decide +kernel
  refine .part (by decide +kernel) (by
    rw [c1]; exact .header (i := 56) (by decide +kernel) rfl (by decide)) ?_
    (.file (name := b!"f") (fn := b!"a") (data := b!"hello") rfl rfl rfl rfl (by decide) (by decide) ?_ (by decide)) ?_
  · intro d n name fn _ h2 h3 _ _
    cases h2
    cases h3
    rfl
  · unfold FileData
    rw [if_neg (by decide +kernel)]
    rfl
  have h2 : after (b!"--" ++ b!"B") (twoFiles.drop 3) = twoFiles.drop 73 := by decide +kernel
  rw [h2]
  have c2 : cut (b!"--" ++ b!"B") (twoFiles.drop 73) =
      b!"\r\nContent-Disposition: form-data; name=\"s\"; filename=\"b\"\r\n\r\nxyz" := by decide +kernel
  refine .skip (by decide +kernel) (by
    rw [c2]; exact .header (i := 56) (by decide +kernel) rfl (by decide))
    ⟨_, _, b!"s", b!"b", rfl, rfl, rfl, rfl, by decide, rfl⟩ ?_
  exact .rest (by decide +kernel) (by decide +kernel) (by decide +kernel)

/-- The hypotheses are met, for every chunk size and cutting of the body. -/
example (k : Nat) (hk : 1 ≤ k) (cs : List Bytes) (h : cs.flatten = twoFiles) :=
  C100_gated_partial (L := Source.lawful) latinCodecs (fun b => latin_avoids (by simp) (by simp)) {} rfl (refuseS .skipFile)
    goodOs (fun _ => rfl) 1000 ⟨b!"B", k, 1000⟩ hk (by simp) [.conv {}] (by intro b hb; simp at hb; exact ⟨_, hb⟩) []
    ⟨⟨.conv {}, by simp, trivial⟩, by intro h hh _; decide⟩
    (LazyStream.mk' ⟨cs⟩) (SOK.fresh cs) (by rw [sc_fresh, h]; decide +kernel) _ (by
      rw [sc_fresh, h]; exact twoFiles_reads)

end Verif
