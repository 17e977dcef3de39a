import Verif.Proofs.Base64
import Verif.Props.Independent
import Verif.Props.Limits
/-!
# When the pieces of a body do not matter (C28)
-/

namespace Verif
open Spec

/-- The bytes of a file whose part has the given content: the content itself, or what it encodes in
base64 (white space does not count). -/
def Spec.FileData (te : Option Bytes) (content data : Bytes) : Prop :=
  if te = some b!"base64" then Base64 (Py.removeSpaces content) data else data = content

/-- A part that the parser reads to its end, or gives up on before reading, or passes over and is
`short`. -/
inductive Spec.PartSettled (t : ItemType) (md : MetaData) (content : Bytes) (short : Prop) : Prop where
  /-- No name: passed over. -/
  | unnamed : partName md = none → short → PartSettled t md content short
  /-- A name outside ASCII: an error. -/
  | badName {d n e} : partName md = some (d, n) → forceText n.strip = .error e → PartSettled t md content short
  /-- A form field. -/
  | field {d n name} : partName md = some (d, n) → forceText n.strip = .ok name → t = .field →
      PartSettled t md content short
  /-- A file name that raises an error. -/
  | badFile {d n name e} : partName md = some (d, n) → forceText n.strip = .ok name → t = .file →
      dispositionFileName d = .error e → PartSettled t md content short
  /-- No file was chosen: passed over. -/
  | noFile {d n name} : partName md = some (d, n) → forceText n.strip = .ok name → t = .file →
      dispositionFileName d = .ok [] → short → PartSettled t md content short
  /-- A file that is not empty. -/
  | file {d n name fn data} : partName md = some (d, n) → forceText n.strip = .ok name → t = .file →
      dispositionFileName d = .ok fn → fn ≠ [] → name ≠ [] → FileData (transferEnc md) content data →
      data ≠ [] → PartSettled t md content short

/-- A body in which no part of 1024 bytes or more is passed over.  `cut sep D` is the first part and
`after sep D` what follows its separator. -/
inductive Spec.Settled (C : Codecs) (sep : Bytes) : Bytes → Prop where
  | done : Settled C sep []
  /-- The rest of the body has neither a separator nor an empty line. -/
  | rest {D} : ¬ sep <:+: D → ¬ b!"\r\n\r\n" <:+: D → Settled C sep D
  /-- The header of the part raises an error. -/
  | bad {D e} : D ≠ [] → HeadErr C (cut sep D) e → Settled C sep D
  | part {D t md content} : D ≠ [] → PartHead C (cut sep D) t md content →
      PartSettled t md content ((cut sep D).length < 1024) → Settled C sep (after sep D) → Settled C sep D

/-- What the parser has read, without the objects that stand for the files: field name, file name and
content of the complete files and of the file that is still open. -/
structure Ghost where
  post : MVD PostItem
  files : List (Bytes × Bytes × Bytes)
  old : Option (Bytes × Bytes × Bytes)
  bytes : Nat
  keys : Nat

/-- The open file is complete. -/
def Ghost.close (g : Ghost) : Ghost := { g with files := g.files ++ g.old.toList, old := none }

section
variable {ρ σ F : Type} {H : HandlerOps ρ σ F} (Ready : σ → List (Bytes × F × Bytes) → Prop)
  (Busy : σ → List Nat → List (Bytes × F × Bytes) → Bytes → Bytes → Prop)

/-- The state of the parser stands for `g`. -/
structure Abs (st : PState σ F) (g : Ghost) : Prop where
  post : st.post = g.post
  bytes : st.numBytes = g.bytes
  keys : st.numKeys = g.keys
  files : ∃ m : Made F, m.map Prod.fst = g.files ∧ st.files = m.dict ∧
    match g.old with
    | none => st.oldField = none ∧ Ready st.world m.done
    | some (n, fn, c) => n ≠ [] ∧ c ≠ [] ∧ st.oldField = some n ∧ Busy st.world st.counters m.done fn c

variable {Ready Busy}

theorem Abs.complete {T : NewFileArgs → Prop} {st : PState σ F} {g : Ghost} (hs : Stores H Ready Busy T) (h : Abs Ready Busy st g) :
    ∃ st1, completeOld H st = (.ok (), st1) ∧ Abs Ready Busy st1 g.close := by
  obtain ⟨m, h1, h2, h3⟩ := h.files
  obtain ⟨post, files, old, bytes, keys⟩ := g
  cases old with
  | none =>
    simp only at h3
    refine ⟨st, by simp [completeOld, h3.1], h.post, h.bytes, h.keys, m, ?_, h2, h3⟩
    simpa [Ghost.close] using h1
  | some o =>
    obtain ⟨n, fn, c⟩ := o
    simp only at h3
    obtain ⟨h3, h4, h5, h6⟩ := h3
    obtain ⟨f, w', a1, a2⟩ := hs.completes _ _ _ _ _ h6 h4
    cases n with
    | nil => exact absurd rfl h3
    | cons x n =>
      refine ⟨{ st with world := w', files := st.files.append (x :: n) f, oldField := none }, ?_,
        h.post, h.bytes, h.keys, m ++ [((x :: n, fn, c), f)], ?_, ?_, rfl, ?_⟩
      · simp [completeOld, h5, handleFileComplete, a1]
      · simpa [Ghost.close] using h1
      · simp [h2, Made.dict]
      · simpa [Made.done] using a2

/-- Storing a field looks only at the fields. -/
theorem storeField_blind (C : Codecs) (S : Settings) (name : Bytes) (te : Option Bytes) (md : MetaData) (raw : Bytes)
    (post : MVD PostItem) (bytes : Nat) : ∃ r post' bytes', ∀ {σ F : Type} (st : PState σ F), st.post = post →
      st.numBytes = bytes → storeField C S name te md raw st = (r, { st with post := post', numBytes := bytes' }) := by
  cases hd : (if te = some b!"base64" then Py.b64decode raw else some raw) with
  | none =>
    refine ⟨.error .typeError, post, bytes + raw.length, fun {σ F} st h1 h2 => ?_⟩
    subst h1 h2
    simp only [storeField, hd]
  | some data =>
    by_cases hm : S.dataMaxMemory.any (· < ((bytes + raw.length + (name.length + 2) : Nat) : Int)) = true
    · refine ⟨.error .requestDataTooBig, post, bytes + raw.length + (name.length + 2), fun {σ F} st h1 h2 => ?_⟩
      subst h1 h2
      simp only [storeField, hd]
      rw [if_pos hm]
    · cases hk : postAppend C S post name { data := data, contentType := Py.ustrip ((md.get? b!"content-type").getD ([], [])).1, transferEncoding := te.getD [], extra := ((md.get? b!"content-type").getD ([], [])).2 } with
      | error e =>
        refine ⟨.error e, post, bytes + raw.length + (name.length + 2), fun {σ F} st h1 h2 => ?_⟩
        subst h1 h2
        simp only [storeField, hd, hk]
        rw [if_neg hm]
      | ok post' =>
        refine ⟨.ok (), post', bytes + raw.length + (name.length + 2), fun {σ F} st h1 h2 => ?_⟩
        subst h1 h2
        simp only [storeField, hd, hk]
        rw [if_neg hm]

theorem RecvRun.stores64 {T : NewFileArgs → Prop} (hs : Stores H Ready Busy T) {fuel64 : Nat} {a : NewFileArgs} {content data : Bytes}
    {cs : List Nat} {w w' : σ} {r : Except Exc Unit} (h : RecvRun H fuel64 a content w r cs w')
    (ha : FileData a.transferEncoding content data) (hl : content.length ≤ fuel64) (hT : T a) {done} (hw : Ready w done) :
    r = .ok () ∧ Busy w' cs done a.fileName data := by
  obtain ⟨w1, b1, b2⟩ := hs.opens w done a hT hw
  cases h with
  | refused h => rw [b1] at h; simp at h
  | fed h h2 =>
    rw [b1] at h
    simp only [Prod.mk.injEq, true_and] at h
    subst h
    unfold FileData at ha
    by_cases hb : a.transferEncoding = some b!"base64"
    · rw [if_pos hb] at ha
      rw [decide_eq_true hb] at h2
      have := h2.stores64 hs _ _ _ _ hl ha b2
      rwa [List.nil_append] at this
    · rw [if_neg hb] at ha
      rw [decide_eq_false hb] at h2
      subst ha
      have := h2.stores hs _ _ _ b2
      rwa [List.nil_append] at this

/-- What happens with a part is a function of its bytes and of what was read before. -/
theorem PartRun.ghost (C : Codecs) (S : Settings) {t : ItemType} {md : MetaData}
    {content : Bytes} {short : Prop} (hP : PartSettled t md content short) (g : Ghost) :
    ∃ res : Except Exc Ghost, ∀ {ρ σ F : Type} {H : HandlerOps ρ σ F} {Ready : σ → List (Bytes × F × Bytes) → Prop}
      {Busy : σ → List Nat → List (Bytes × F × Bytes) → Bytes → Bytes → Prop} (_ : Stores H Ready Busy) (fuel64 : Nat)
      (st : PState σ F) b r st', (t ≠ .raw → content.length ≤ fuel64) → Abs Ready Busy st g →
      PartRun C S H fuel64 t md content st b r st' →
      match res with
      | .error e => r = .error e
      | .ok g' => r = .ok () ∧ (b = true ∨ short) ∧ Abs Ready Busy st' g' := by
  cases hP with
  | unnamed h1 h2 =>
    refine ⟨.ok g.close, fun {ρ σ F H Ready Busy} hs fuel64 st b r st' hl ha hr => ?_⟩
    obtain ⟨st1, c1, c2⟩ := ha.complete hs
    obtain ⟨rfl, rfl, rfl⟩ := hr.skip_inv c1 h1
    exact ⟨rfl, .inr h2, c2⟩
  | @badName d n e h1 h2 =>
    refine ⟨.error e, fun {ρ σ F H Ready Busy} hs fuel64 st b r st' hl ha hr => ?_⟩
    obtain ⟨st1, c1, c2⟩ := ha.complete hs
    cases hr with
    | completeErr k1 => rw [c1] at k1; simp at k1
    | skip _ k => rw [h1] at k; simp at k
    | nameErr _ k1 k2 =>
      rw [h1] at k1; simp only [Option.some.injEq, Prod.mk.injEq] at k1
      obtain ⟨rfl, rfl⟩ := k1
      rw [h2] at k2; simpa using k2.symm
    | _ _ k1 k2 =>
      rw [h1] at k1; simp only [Option.some.injEq, Prod.mk.injEq] at k1
      obtain ⟨rfl, rfl⟩ := k1
      rw [h2] at k2; simp at k2
  | @field d n name h1 h2 h3 =>
    subst h3
    by_cases q1 : S.maxFields.any (· < ((g.close.keys + 1 : Nat) : Int)) = true
    · refine ⟨.error .tooManyFieldsSent, fun {ρ σ F H Ready Busy} hs fuel64 st b r st' hl ha hr => ?_⟩
      obtain ⟨st1, c1, c2⟩ := ha.complete hs
      rw [← c2.keys] at q1
      cases hr <;> simp_all
    · rw [Bool.not_eq_true] at q1
      by_cases q2 : S.dataMaxMemory.any (· < (g.close.bytes : Int)) = true
      · refine ⟨.error .assertionError, fun {ρ σ F H Ready Busy} hs fuel64 st b r st' hl ha hr => ?_⟩
        obtain ⟨st1, c1, c2⟩ := ha.complete hs
        rw [← c2.keys] at q1
        rw [← c2.bytes] at q2
        cases hr <;> simp_all
      · rw [Bool.not_eq_true] at q2
        obtain ⟨r0, post', bytes', k⟩ := storeField_blind C S name (transferEnc md) md
          (match S.dataMaxMemory with
          | none => content
          | some m => content.take (m - g.close.bytes).toNat) g.close.post g.close.bytes
        refine ⟨match r0 with
          | .error e => .error e
          | .ok () => .ok { g.close with post := post', bytes := bytes', keys := g.close.keys + 1 },
          fun {ρ σ F H Ready Busy} hs fuel64 st b r st' hl ha hr => ?_⟩
        obtain ⟨st1, c1, c2⟩ := ha.complete hs
        rw [← c2.keys] at q1
        rw [← c2.bytes] at q2 k
        obtain ⟨raw, k1, k2, k3⟩ := hr.field_inv c1 h1 h2 rfl q1 q2
        have k1' := k { st1 with numKeys := st1.numKeys + 1 } c2.post rfl
        rw [k1] at k2
        have k2 := k1'.symm.trans k2
        simp only [Prod.mk.injEq] at k2
        obtain ⟨rfl, rfl⟩ := k2
        cases r0 with
        | error e => rfl
        | ok u =>
          exact ⟨rfl, .inl (k3 rfl).2, rfl, rfl, by simp [c2.keys], c2.files⟩
  | @badFile d n name e h1 h2 h3 h4 =>
    subst h3
    refine ⟨.error e, fun {ρ σ F H Ready Busy} hs fuel64 st b r st' hl ha hr => ?_⟩
    obtain ⟨st1, c1, c2⟩ := ha.complete hs
    cases hr <;> simp_all
  | @noFile d n name h1 h2 h3 h4 h5 =>
    subst h3
    refine ⟨.ok g.close, fun {ρ σ F H Ready Busy} hs fuel64 st b r st' hl ha hr => ?_⟩
    obtain ⟨st1, c1, c2⟩ := ha.complete hs
    cases hr <;> simp_all
  | @file d n name fn data h1 h2 h3 h4 h5 h6 h7 h8 =>
    refine ⟨.ok { g.close with old := some (name, fn, data) }, fun {ρ σ F H Ready Busy} hs fuel64 st b r st' hl ha hr => ?_⟩
    obtain ⟨st1, c1, c2⟩ := ha.complete hs
    obtain ⟨r0, cs, w, k1, k2⟩ := hr.file_inv c1 h1 h2 h3 h4 h5
    obtain ⟨m, m1, m2, m3⟩ := c2.files
    have m3 : Ready st1.world m.done := m3.2
    obtain ⟨rfl, hB⟩ := RecvRun.stores64 hs k1 (data := data) h7 (hl (by rw [h3]; simp)) trivial m3
    rcases k2 with ⟨_, rfl, rfl, rfl⟩ | ⟨h, _⟩ | ⟨e, h, _⟩
    · exact ⟨rfl, .inl rfl, c2.post, c2.bytes, c2.keys, m, m1, m2, h6, h8, rfl, hB⟩
    · simp at h
    · simp at h

theorem PartHead.unique {C : Codecs} {P : Bytes} {t t' : ItemType} {md md' : MetaData} {content content' : Bytes}
    (h : PartHead C P t md content) (h' : PartHead C P t' md' content') : t = t' ∧ md = md' ∧ content = content' := by
  cases h <;> cases h' <;> simp_all

theorem PartHead.no_err {C : Codecs} {P : Bytes} {t : ItemType} {md : MetaData} {content : Bytes}
    (h : PartHead C P t md content) (e : Exc) : ¬ HeadErr C P e := by
  rintro ⟨i, h1, h2⟩
  cases h <;> simp_all

theorem PartHead.length {C : Codecs} {P : Bytes} {t : ItemType} {md : MetaData} {content : Bytes}
    (h : PartHead C P t md content) (ht : t ≠ .raw) : content.length ≤ P.length := by
  cases h with
  | noHeader => exact absurd rfl ht
  | header => simp
  | rawHeader => exact absurd rfl ht

/-- The rest of a body without separator and empty line completes the open file, if there is a rest. -/
theorem Parses.rest_ghost {T : NewFileArgs → Prop} {C : Codecs} {S : Settings} {fuel64 : Nat} {sep : Bytes}
    (hs : Stores H Ready Busy T) {r D' st'} :
    ∀ (k : Nat) (D : Bytes) (st : PState σ F) (g : Ghost), D.length ≤ k → ¬ sep <:+: D → ¬ b!"\r\n\r\n" <:+: D →
      Abs Ready Busy st g → Parses C S H fuel64 sep D st r D' st' →
      r = .ok () ∧ Abs Ready Busy st' (if D = [] then g else g.close) := by
  intro k
  induction k with
  | zero =>
    intro D st g hk _ _ h hp
    have : D = [] := List.length_eq_zero_iff.1 (by omega)
    subst this
    obtain ⟨rfl, rfl⟩ := hp.nil_inv
    exact ⟨rfl, by simpa using h⟩
  | succ k ih =>
    intro D st g hk h1 h2 h hp
    by_cases hne : D = []
    · subst hne
      obtain ⟨rfl, rfl⟩ := hp.nil_inv
      exact ⟨rfl, by simpa using h⟩
    · obtain ⟨c1, c2⟩ := cut_last h1
      have hnf : Py.find b!"\r\n\r\n" (D.take 1024) = none :=
        Py.find_none_iff_not_infix.2 (fun hc => h2 (hc.trans (List.take_prefix _ _).isInfix))
      obtain ⟨t, md, content, b, r1, D1, st1, e1, e2, e3, e4⟩ := hp.step_inv hne (by
        rw [c1]; rintro e ⟨i, hi, _⟩; rw [hnf] at hi; simp at hi)
      rw [c1] at e1
      obtain ⟨rfl, rfl, rfl⟩ := e1.inv_none hnf
      obtain ⟨st2, f1, f2⟩ := h.complete hs
      obtain ⟨rfl, rfl, rfl⟩ := e2.skip_inv f1 rfl
      rcases e4 with ⟨e, he, _⟩ | ⟨_, g1, _, g3⟩
      · simp at he
      · have := ih D1 _ g.close (by omega) (fun hc => h1 (hc.trans e3.isInfix)) (fun hc => h2 (hc.trans e3.isInfix)) f2 g3
        rw [if_neg hne]
        have hcc : g.close.close = g.close := by simp [Ghost.close]
        rw [hcc, ite_self] at this
        exact this

/-- The result for a settled body is a function of the body. -/
theorem Parses.ghost (C : Codecs) (S : Settings) {sep : Bytes} {D : Bytes}
    (hD : Settled C sep D) : ∀ g : Ghost, ∃ res : Except Exc Ghost, ∀ {ρ σ F : Type} {H : HandlerOps ρ σ F}
      {Ready : σ → List (Bytes × F × Bytes) → Prop}
      {Busy : σ → List Nat → List (Bytes × F × Bytes) → Bytes → Bytes → Prop} (_ : Stores H Ready Busy)
      (fuel64 : Nat) (st : PState σ F) r D' st',
      D.length ≤ fuel64 → Abs Ready Busy st g → Parses C S H fuel64 sep D st r D' st' →
      match res with
      | .error e => r = .error e
      | .ok g' => r = .ok () ∧ Abs Ready Busy st' g' := by
  induction hD with
  | done =>
    intro g
    refine ⟨.ok g, fun {ρ σ F H Ready Busy} hs fuel64 st r D' st' _ ha hp => ?_⟩
    obtain ⟨rfl, rfl⟩ := hp.nil_inv
    exact ⟨rfl, ha⟩
  | @rest D h1 h2 =>
    intro g
    exact ⟨.ok (if D = [] then g else g.close), fun {ρ σ F H Ready Busy} hs fuel64 st r D' st' _ ha hp =>
      Parses.rest_ghost hs D.length D st g (le_refl _) h1 h2 ha hp⟩
  | @bad D e h1 h2 =>
    intro g
    refine ⟨.error e, fun {ρ σ F H Ready Busy} hs fuel64 st r D' st' _ ha hp => ?_⟩
    obtain ⟨i, k1, k2⟩ := h2
    cases hp with
    | done => exact absurd rfl h1
    | headErr _ h _ =>
      obtain ⟨i', k1', k2'⟩ := h
      rw [k1] at k1'
      simp only [Option.some.injEq] at k1'
      subst k1'
      rw [k2] at k2'
      simpa using k2'.symm
    | partErr _ h => exact absurd ⟨i, k1, k2⟩ (h.no_err e)
    | part _ h => exact absurd ⟨i, k1, k2⟩ (h.no_err e)
  | @part D t md content h1 h2 h3 _ ih =>
    intro g
    obtain ⟨res1, k1⟩ := PartRun.ghost C S h3 g
    have hcl : (cut sep D).length ≤ D.length := (cut_prefix sep D).length_le
    have hal : (after sep D).length ≤ D.length := by
      unfold after; split <;> simp
    cases res1 with
    | error e =>
      refine ⟨.error e, fun {ρ σ F H Ready Busy} hs fuel64 st r D' st' hf ha hp => ?_⟩
      obtain ⟨t', md', content', b, r1, D1, st1, e1, e2, e3, e4⟩ := hp.step_inv h1 h2.no_err
      obtain ⟨rfl, rfl, rfl⟩ := h2.unique e1
      have := k1 hs fuel64 st b r1 st1 (fun ht => by have := h2.length ht; omega) ha e2
      simp only at this
      subst this
      rcases e4 with ⟨e, he, he2, _⟩ | ⟨he, _⟩
      · simp only [Except.error.injEq] at he
        rw [he2, he]
      · simp at he
    | ok g1 =>
      obtain ⟨res2, k2⟩ := ih g1
      refine ⟨res2, fun {ρ σ F H Ready Busy} hs fuel64 st r D' st' hf ha hp => ?_⟩
      obtain ⟨t', md', content', b, r1, D1, st1, e1, e2, e3, e4⟩ := hp.step_inv h1 h2.no_err
      obtain ⟨rfl, rfl, rfl⟩ := h2.unique e1
      obtain ⟨rfl, j2, j3⟩ := k1 hs fuel64 st b r1 st1 (fun ht => by have := h2.length ht; omega) ha e2
      rcases e4 with ⟨e, he, he2, _⟩ | ⟨_, _, q2, q3⟩
      · simp at he
      · rw [q2 j2] at q3
        exact k2 hs fuel64 st1 r D' st' (by omega) j3 q3

end

/-! ### The built-in handlers -/

/-- What the view of the result is for what the parser has read. -/
def Ghost.view (g : Ghost) : MVD PostItem × MVD (Bytes × Nat × Option Bytes) :=
  (g.post, g.files.foldl (fun d p => MVD.append d p.1 (setName p.2.1, p.2.2.length, some p.2.2)) [])

theorem Made.view {heap : Heap} (made : Made Uploaded) (h : Stored heap made.done) :
    made.dict.map (fun q => (q.1, q.2.map (Uploaded.view heap))) =
      (made.map Prod.fst).foldl (fun d p => MVD.append d p.1 (setName p.2.1, p.2.2.length, some p.2.2)) [] := by
  have key : ∀ p ∈ made, Uploaded.view heap p.2 = (setName p.1.2.1, p.1.2.2.length, some p.1.2.2) := by
    intro p hp
    obtain ⟨a1, a2, a3⟩ := h.1 (p.1.2.1, p.2, p.1.2.2) (List.mem_map.2 ⟨p, hp, rfl⟩)
    simp only at a1 a2 a3
    simp only [Uploaded.view, a1, a2, a3]
    rfl
  clear h
  unfold Made.dict
  suffices h : ∀ d : MVD Uploaded,
      List.map (fun q => (q.1, q.2.map (Uploaded.view heap))) (made.foldl (fun d p => MVD.append d p.1.1 p.2) d) =
        (made.map Prod.fst).foldl (fun d p => MVD.append d p.1 (setName p.2.1, p.2.2.length, some p.2.2))
          (d.map (fun q => (q.1, q.2.map (Uploaded.view heap)))) by
    exact h []
  induction made with
  | nil => intro d; rfl
  | cons p made ih =>
    intro d
    rw [List.foldl_cons, ih (fun q hq => key q (by simp [hq])), List.map_cons, List.foldl_cons, append_map,
      key p (by simp)]

/-- The parser ends with `r` and `st'` as `res` says. -/
def PartOut {σ F : Type} (Ready : σ → List (Bytes × F × Bytes) → Prop)
    (Busy : σ → List Nat → List (Bytes × F × Bytes) → Bytes → Bytes → Prop) (q : Prop) (r : Except Exc Unit)
    (st' : PState σ F) : Except Exc Ghost → Prop
  | .error e => r = .error e
  | .ok g' => r = .ok () ∧ q ∧ Abs Ready Busy st' g'

theorem start_view {ρ : Type} [Producer ρ] {L : Lawful ρ} (C : Codecs) (hC : ∀ b, C.Avoids (.stopUpload b))
    (S : Settings) (hS : ∀ k, S.dataMaxMemory = some k → 0 ≤ k) (hq : emptyQueryDict C S = .ok ())
    (os : Os) (hos : ∀ e, os.tempFile e = .ok ()) (fuel64 : Nat) (m : MultiPart) (hc : 1 ≤ m.chunkSize)
    (hl : m.contentLength ≠ 0) (hs : List Builtin) (heap : Heap)
    (input : LazyStream ρ) (hi : SOK L input) (res : Except Exc Ghost)
    (k : ∀ r D' st', Parses C S (builtinOps ρ os hs.length) fuel64 (b!"--" ++ m.boundary) (L.sc input)
        (PState.start (builtinOps ρ os hs.length) ⟨hs.map (Builtin.rawInput ⟨m.contentLength, m.boundary, S⟩), heap⟩) r D' st' →
      PartOut (BReady hs.length) (BBusy hs.length) True r st' res) :
    viewOf (m.parse C S (builtinOps ρ os hs.length) fuel64 input ⟨hs, heap⟩).1
        (m.parse C S (builtinOps ρ os hs.length) fuel64 input ⟨hs, heap⟩).2.2.heap = res.map Ghost.view := by
  have hraw := rawInputLoop_builtin (ρ := ρ) os hs.length ⟨m.contentLength, m.boundary, S⟩ input heap hs []
  simp only [List.length_nil, List.nil_append, ← List.range_eq_range'] at hraw
  rcases parse_spec (L := L) C S _ fuel64 m hc hl input input _ _ hraw hi with
    ⟨e', h1, h2⟩ | ⟨_, r, D', st', s', R, w', h1, h2, h3, _⟩
  · rw [hq] at h1; simp at h1
  · have := k r D' st' h2
    rw [h1]
    cases res with
    | error e =>
      simp only [PartOut] at this
      subst this
      have hw : Within S (PState.start (builtinOps ρ os hs.length)
          ⟨hs.map (Builtin.rawInput ⟨m.contentLength, m.boundary, S⟩), heap⟩) := by
        refine ⟨?_, ?_⟩
        · cases hd : S.dataMaxMemory with
          | none => rfl
          | some k => have := hS k hd; simp [PState.start]; omega
        · unfold emptyQueryDict at hq
          by_contra hx
          rw [Bool.not_eq_false] at hx
          have hx' : S.maxFields.any (· < 0) = true := hx
          rw [hx'] at hq
          simp only [if_true] at hq
          split at hq
          · split at hq <;> simp at hq
          · simp at hq
      have hne : ∀ b, e ≠ .stopUpload b := by
        rintro b rfl
        have hH : (builtinOps ρ os hs.length).Avoids (.stopUpload b) :=
          builtin_avoids (by simp [hos]) (by simp) (by simp) (by simp)
        rcases h2.err hH (hC b) rfl hw with h | ⟨h, _⟩
        · unfold ParserExc at h; simp at h
        · simp at h
      have h3' : R = .error e := by
        cases e <;> first | (simp only [endParse, Prod.mk.injEq] at h3; exact h3.1.symm) | exact absurd rfl (hne _)
      rw [h3']; rfl
    | ok g =>
      obtain ⟨rfl, _, ha⟩ := this
      simp only [endParse] at h3
      rw [uploadCompleteLoop_builtin] at h3
      simp only [Prod.mk.injEq] at h3
      obtain ⟨rfl, rfl⟩ := h3
      obtain ⟨made, f1, f2, f3⟩ := ha.files
      have hst : Stored st'.world.heap made.done := by
        cases ho : g.old with
        | none => rw [ho] at f3; exact f3.2.2
        | some o => rw [ho] at f3; exact f3.2.2.2.1
      simp only [viewOf, Except.map, Ghost.view, Except.ok.injEq, Prod.mk.injEq]
      refine ⟨ha.post, ?_⟩
      rw [f2, Made.view made hst, f1]

theorem ghost_view {ρ : Type} [Producer ρ] {L : Lawful ρ} (C : Codecs) (hC : ∀ b, C.Avoids (.stopUpload b))
    (S : Settings) (hS : ∀ k, S.dataMaxMemory = some k → 0 ≤ k) (hq : emptyQueryDict C S = .ok ())
    (os : Os) (hos : ∀ e, os.tempFile e = .ok ()) (fuel64 : Nat) (m : MultiPart) (hc : 1 ≤ m.chunkSize)
    (hl : m.contentLength ≠ 0) (hs : List Builtin) (heap : Heap) (ht : Takes S m.contentLength hs)
    (input : LazyStream ρ) (hi : SOK L input) (res : Except Exc Ghost)
    (k : ∀ (st : PState BWorld Uploaded) r D' st', Abs (BReady hs.length) (BBusy hs.length) st ⟨[], [], none, 0, 0⟩ →
      Parses C S (builtinOps ρ os hs.length) fuel64 (b!"--" ++ m.boundary) (L.sc input) st r D' st' →
      PartOut (BReady hs.length) (BBusy hs.length) True r st' res) :
    viewOf (m.parse C S (builtinOps ρ os hs.length) fuel64 input ⟨hs, heap⟩).1
        (m.parse C S (builtinOps ρ os hs.length) fuel64 input ⟨hs, heap⟩).2.2.heap = res.map Ghost.view :=
  start_view C hC S hS hq os hos fuel64 m hc hl hs heap input hi res
    (fun r D' st' hp => k _ r D' st' ⟨rfl, rfl, rfl, [], rfl, rfl, rfl, ht.ready _ _⟩ hp)

theorem settled_view (C : Codecs) (hC : ∀ b, C.Avoids (.stopUpload b)) (S : Settings)
    (hS : ∀ k, S.dataMaxMemory = some k → 0 ≤ k) (boundary body : Bytes)
    (hb : Settled C (b!"--" ++ boundary) body) :
    ∃ res : Except Exc (MVD PostItem × MVD (Bytes × Nat × Option Bytes)),
      ∀ {ρ : Type} [Producer ρ] {L : Lawful ρ} (os : Os) (_ : ∀ e, os.tempFile e = .ok ()) (fuel64 : Nat)
      (_ : body.length ≤ fuel64) (m : MultiPart) (_ : m.boundary = boundary) (_ : 1 ≤ m.chunkSize)
      (_ : m.contentLength ≠ 0)
      (hs : List Builtin) (heap : Heap) (_ : Takes S m.contentLength hs)
      (input : LazyStream ρ) (_ : SOK L input) (_ : L.sc input = body),
      viewOf (m.parse C S (builtinOps ρ os hs.length) fuel64 input ⟨hs, heap⟩).1
        (m.parse C S (builtinOps ρ os hs.length) fuel64 input ⟨hs, heap⟩).2.2.heap = res := by
  cases hq : emptyQueryDict C S with
  | error e =>
    refine ⟨.error e, fun {ρ} _ L os hos fuel64 hf m hm hc hl hs heap ht input hi hin => ?_⟩
    have hraw := rawInputLoop_builtin (ρ := ρ) os hs.length ⟨m.contentLength, m.boundary, S⟩ input heap hs []
    simp only [List.length_nil, List.nil_append, ← List.range_eq_range'] at hraw
    rcases parse_spec (L := L) C S _ fuel64 m hc hl input input _ _ hraw hi with
      ⟨e', h1, h2⟩ | ⟨h1, _⟩
    · rw [hq] at h1
      simp only [Except.error.injEq] at h1
      rw [h2, h1]; rfl
    · rw [hq] at h1; simp at h1
  | ok u =>
    obtain ⟨res, k⟩ := Parses.ghost C S hb ⟨[], [], none, 0, 0⟩
    refine ⟨res.map Ghost.view, fun {ρ} _ L os hos fuel64 hf m hm hc hl hs heap ht input hi hin => ?_⟩
    refine ghost_view (L := L) C hC S hS hq os hos fuel64 m hc hl hs heap ht input hi res
      (fun st r D' st' ha hp => ?_)
    rw [hin, hm] at hp
    have := k (builtin_stores (ρ := ρ) hos hs.length) fuel64 st r D' st' hf ha hp
    cases res with
    | error e => exact this
    | ok g => exact ⟨this.1, trivial, this.2⟩

/-- **C28, the part that holds, in general**: the visible result for a body in which no part of 1024
bytes or more is passed over depends on nothing but the body, the boundary and the settings: not on the
chunk sizes, the pieces in which the body arrives, the stream's history, the installed handlers and
their history, or the operating system.  The parts may be anything else: malformed headers, fields over
the limits, files in base64, names that raise errors.  Missing: long parts that are passed over (see
`C28_refuted`), empty files, files without a field name, broken base64. -/
theorem C28_settled_partial {ρ₁ ρ₂ : Type} [Producer ρ₁] [Producer ρ₂] {L₁ : Lawful ρ₁} {L₂ : Lawful ρ₂} (C : Codecs)
    (hC : ∀ b, C.Avoids (.stopUpload b)) (S : Settings) (hS : ∀ k, S.dataMaxMemory = some k → 0 ≤ k)
    (boundary body : Bytes) (hb : Settled C (b!"--" ++ boundary) body)
    (os₁ os₂ : Os) (hos₁ : ∀ e, os₁.tempFile e = .ok ()) (hos₂ : ∀ e, os₂.tempFile e = .ok ())
    (fuel₁ fuel₂ : Nat) (hf₁ : body.length ≤ fuel₁) (hf₂ : body.length ≤ fuel₂) (k₁ k₂ len₁ len₂ : Nat)
    (hc₁ : 1 ≤ k₁) (hc₂ : 1 ≤ k₂) (hl₁ : len₁ ≠ 0) (hl₂ : len₂ ≠ 0)
    (hs₁ hs₂ : List Builtin) (heap₁ heap₂ : Heap) (ht₁ : Takes S len₁ hs₁) (ht₂ : Takes S len₂ hs₂)
    (input₁ : LazyStream ρ₁) (hi₁ : SOK L₁ input₁) (hin₁ : L₁.sc input₁ = body)
    (input₂ : LazyStream ρ₂) (hi₂ : SOK L₂ input₂) (hin₂ : L₂.sc input₂ = body) :
    let r₁ := MultiPart.parse C S (builtinOps ρ₁ os₁ hs₁.length) fuel₁ ⟨boundary, k₁, len₁⟩ input₁ ⟨hs₁, heap₁⟩
    let r₂ := MultiPart.parse C S (builtinOps ρ₂ os₂ hs₂.length) fuel₂ ⟨boundary, k₂, len₂⟩ input₂ ⟨hs₂, heap₂⟩
    viewOf r₁.1 r₁.2.2.heap = viewOf r₂.1 r₂.2.2.heap := by
  obtain ⟨res, h⟩ := settled_view C hC S hS boundary body hb
  have a1 := h (L := L₁) os₁ hos₁ fuel₁ hf₁ ⟨boundary, k₁, len₁⟩ rfl hc₁ hl₁ hs₁ heap₁ ht₁ input₁ hi₁ hin₁
  have a2 := h (L := L₂) os₂ hos₂ fuel₂ hf₂ ⟨boundary, k₂, len₂⟩ rfl hc₂ hl₂ hs₂ heap₂ ht₂ input₂ hi₂ hin₂
  exact a1.trans a2.symm

/-- A body with a part that has no name, a file in base64, and no closing separator. -/
def settledBody : Bytes :=
  b!"--B\r\nX: y\r\n\r\njunk\r\n--B\r\nContent-Disposition: form-data; name=\"up\"; filename=\"n\"\r\nContent-Transfer-Encoding: base64\r\n\r\nSGVs\r\n--B--\r\n"

theorem settledBody_settled : Settled latinCodecs (b!"--" ++ b!"B") settledBody := by
  refine .part (t := .raw) (md := []) (content := []) (by decide +kernel) ?_ (.unnamed rfl (by decide +kernel)) ?_
  · have : cut (b!"--" ++ b!"B") settledBody = [] := by decide +kernel
    rw [this]; exact .noHeader (by decide +kernel)
  have h1 : after (b!"--" ++ b!"B") settledBody = settledBody.drop 3 := by decide +kernel
  rw [h1]
  have c1 : cut (b!"--" ++ b!"B") (settledBody.drop 3) = b!"\r\nX: y\r\n\r\njunk" := by decide +kernel
  refine .part (by decide +kernel) (by
    rw [c1]; exact .rawHeader (i := 6) (by decide +kernel) rfl) (.unnamed rfl (by decide +kernel)) ?_
  have h2 : after (b!"--" ++ b!"B") (settledBody.drop 3) = settledBody.drop 22 := by decide +kernel
  rw [h2]
  have c2 : cut (b!"--" ++ b!"B") (settledBody.drop 22) =
      b!"\r\nContent-Disposition: form-data; name=\"up\"; filename=\"n\"\r\nContent-Transfer-Encoding: base64" ++
        b!"\r\n\r\nSGVs" := by decide +kernel
  refine .part (by decide +kernel) (by
    rw [c2]; exact .header (i := 92) (by decide +kernel) rfl (by decide))
    (.file (data := b!"Hel") rfl rfl rfl rfl (by decide) (by decide) ?_ (by decide)) ?_
  · unfold FileData
    rw [if_pos (by decide +kernel)]
    exact .three 72 101 108 .nil
  exact .rest (by decide +kernel) (by decide +kernel)

end Verif
