import Verif.Spec.Use
import Verif.Props.FileObj
import Verif.Props.RequestMore
import Verif.Props.Message
/-!
# The files of a request from arrival to `close()` (C116)
-/

namespace Verif
open Spec

theorem fileChunks_all (f : PyFile) (hseek : f.seek = .works) (n : Option Int) :
    ∃ cs, fileChunks f n = .ok (cs, { f with pos := f.content.length }) ∧ cs.flatten = f.content := by
  obtain ⟨content, pos, sk⟩ := f
  cases hseek
  unfold fileChunks
  have hn : chunkSizeOr n ≠ 0 := by
    unfold chunkSizeOr defaultChunkSize
    cases n with
    | none => decide
    | some n => simp only; split <;> omega
  obtain ⟨h1, _, _, _, _, h6⟩ := chunksLoop_spec (chunkSizeOr n) hn (content.length + 1)
    { content := content, pos := 0, seek := .works } (by simp)
  exact ⟨_, by rw [← h6 (by simp)], by simpa using h1⟩

/-- The chunks of an open uploaded file. -/
theorem obj_chunks (f : Uploaded) (content : Bytes) (pos : Nat) (n : Option Int) :
    ∃ cs g, (f.obj ⟨content, pos, false⟩).chunks n = .ok (cs, g) ∧ cs.flatten = content ∧ g.file.pos = content.length := by
  cases hm : f.inMemory with
  | true =>
    refine ⟨[content], { f.obj ⟨content, pos, false⟩ with file := ⟨content, content.length, .works⟩ }, ?_, by simp, rfl⟩
    simp [FileO.chunks, Uploaded.obj, hm, memoryChunks, PyFile.read]
  | false =>
    obtain ⟨cs, h1, h2⟩ := fileChunks_all { content := content, pos := pos } rfl n
    refine ⟨cs, { f.obj ⟨content, pos, false⟩ with file := ⟨content, content.length, .works⟩ }, ?_, h2, rfl⟩
    simp [FileO.chunks, Uploaded.obj, hm, h1]

theorem obj_use (f : Uploaded) (cwd : Cwd) (content : Bytes) (pos : Nat) (u : Use) :
    ∃ l g, (f.obj ⟨content, pos, false⟩).use cwd u = .ok (l, g) ∧
      ∀ rest, Session content g.file.pos rest → Session content pos ((u, .ok l) :: rest) := by
  cases u with
  | chunks n =>
    obtain ⟨cs, g, h1, h2, h3⟩ := obj_chunks f content pos n
    exact ⟨cs, g, h1, fun rest hr => .chunks h2 (h3 ▸ hr)⟩
  | lines =>
    obtain ⟨cs, g, h1, h2, h3⟩ := obj_chunks f content pos none
    refine ⟨iterLines cs, g, by simp only [FileO.use, h1], fun rest hr => .lines ?_ (h3 ▸ hr)⟩
    rw [← h2]
    exact C63_lines cs
  | whole =>
    have h := (C89_partial (f.obj ⟨content, pos, false⟩) none cwd).1 rfl rfl
    refine ⟨[content], { f.obj ⟨content, pos, false⟩ with file := ⟨content, content.length, .works⟩ }, ?_,
      fun rest hr => .whole hr⟩
    simp only [FileO.use, h]
    simp [PyFile.read, Uploaded.obj]
  | read n =>
    refine ⟨_, _, by simp only [FileO.use]; rw [if_neg (by simp [Uploaded.obj])], fun rest hr => ?_⟩
    by_cases hn : n < 0
    · refine .rest hn ?_ hr
      simp [PyFile.read, Uploaded.obj, hn]
    · refine .read (by omega) ?_ hr
      simp [PyFile.read, Uploaded.obj, hn]

/-- What is seen of one file depends on its content only, whatever is done to other files in between. -/
theorem useAll_session (cwd : Cwd) (r : Nat) (content : Bytes) : ∀ (us : List (Uploaded × Use)) (heap : Heap) (pos : Nat),
    heap[r]? = some ⟨content, pos, false⟩ →
    Session content pos (usesOf r us (useAll cwd us heap).1) ∧
    ∃ pos', (useAll cwd us heap).2[r]? = some ⟨content, pos', false⟩ := by
  intro us
  induction us with
  | nil => intro heap pos h; exact ⟨.nil, pos, h⟩
  | cons x us ih =>
    obtain ⟨f, u⟩ := x
    intro heap pos h
    simp only [useAll]
    by_cases hr : f.ref = r
    · subst hr
      obtain ⟨l, g, h1, h2⟩ := obj_use f cwd content pos u
      have hlt := (List.getElem?_eq_some_iff.1 h).1
      have e : f.use cwd u heap = (.ok l, heap.set f.ref ⟨content, g.file.pos, false⟩) := by
        unfold Uploaded.use
        simp only [h, h1]
      rw [e]
      obtain ⟨a, b⟩ := ih (heap.set f.ref ⟨content, g.file.pos, false⟩) g.file.pos (by simp [hlt])
      refine ⟨?_, b⟩
      unfold usesOf at a ⊢
      simp only [List.zip_cons_cons, List.filter_cons, beq_self_eq_true, if_true, List.map_cons]
      exact h2 _ a
    · have e : (f.use cwd u heap).2[r]? = heap[r]? := by
        unfold Uploaded.use
        split
        · rfl
        · split
          · rfl
          · exact List.getElem?_set_ne hr
      obtain ⟨a, b⟩ := ih (f.use cwd u heap).2 pos (e.trans h)
      refine ⟨?_, b⟩
      unfold usesOf at a ⊢
      simp only [List.zip_cons_cons, List.filter_cons]
      rw [if_neg (by simpa using hr)]
      exact a

theorem useAll_length (cwd : Cwd) : ∀ (us : List (Uploaded × Use)) (heap : Heap),
    (useAll cwd us heap).2.length = heap.length ∧ (useAll cwd us heap).1.length = us.length := by
  intro us
  induction us with
  | nil => intro heap; exact ⟨rfl, rfl⟩
  | cons x us ih =>
    obtain ⟨f, u⟩ := x
    intro heap
    simp only [useAll, List.length_cons]
    obtain ⟨a, b⟩ := ih (f.use cwd u heap).2
    refine ⟨a.trans ?_, by rw [b]⟩
    unfold Uploaded.use
    split
    · rfl
    · split
      · rfl
      · simp

/-- A closed file: reading in chunks, by lines or in pieces is a `ValueError`. -/
theorem use_closed (f : Uploaded) (cwd : Cwd) (u : Use) (hu : u ≠ .whole) (heap : Heap) (o : FileObj)
    (h : heap[f.ref]? = some o) (hc : o.closed = true) : f.use cwd u heap = (.error .valueError, heap) := by
  unfold Uploaded.use
  have hcl : (f.obj o).closed = true := hc
  have : ∀ n, (f.obj o).chunks n = .error .valueError := fun n => by unfold FileO.chunks; rw [if_pos hcl]
  cases u with
  | whole => exact absurd rfl hu
  | chunks n => simp only [h, FileO.use, this]
  | lines => simp only [h, FileO.use, this]
  | read n => simp only [h, FileO.use, hcl, if_true]

theorem forall₂_mem_left {α β : Type} {R : α → β → Prop} {l : List α} {m : List β} (h : List.Forall₂ R l m) {b : β} (hb : b ∈ m) :
    ∃ a ∈ l, R a b := by
  induction h with
  | nil => cases hb
  | cons h1 _ ih =>
    rcases List.mem_cons.1 hb with rfl | hb
    · exact ⟨_, by simp, h1⟩
    · obtain ⟨a, ha, hr⟩ := ih hb
      exact ⟨a, by simp [ha], hr⟩

section
variable {ρ : Type} [Producer ρ]

/-- **C116.**  A form sent as multipart, from its arrival to the end.  After the parse, the application may use the
files of `FILES` in any order and as often as it likes; for every file, what it sees is what reading a file with the
content that was sent gives, starting at the beginning, whatever it does to the other files in between.  Then
`close()`, provided no temporary file has been moved away: it closes every file of the form, changes none that is
not of the form, and reading any of the files is a `ValueError` from then on. -/
theorem C116_lifetime {L : Lawful ρ} {E : Env ρ BWorld Uploaded} {S : Settings} {p : ρ} {m : Message}
    {host port : Bytes} {ps : List (Bytes × Bytes)} {qs : List (UStr × UStr)}
    (h : Arrives L E.C S p m host port (some b!"multipart/form-data") ps qs)
    {b cl : Bytes} {n : Nat} (hb : param ps b!"boundary" = some b) (hbo : BoundaryOk (Py.toU b))
    (hcl : m.header b!"Content-Length" = some cl) (hn : Numeral 10 DecDigit cl n) (h0 : n ≠ 0)
    (h13 : 13 ∉ b)
    {pre : Option Bytes} {epi : Bytes} (ha : Around b pre epi) (its : List FormItem)
    (hok : ∀ it ∈ its, it.Ok b) (hbody : m.body = renderForm b its pre epi) (hlim : InLimits S its)
    (hmem : Allowed S.dataMaxMemory 0)
    (os : Os) (hos : ∀ e, os.tempFile e = .ok ()) (w : BWorld) (hs : List Builtin) (heap : Heap)
    (hl : E.load w = (.ok (builtinOps ρ os hs.length), ⟨hs, heap⟩)) (ht : Takes S n hs) :
    ∃ (r0 r' : Req ρ BWorld Uploaded) (w' : BWorld) (files : MVD Uploaded) (fs : List Uploaded),
      Req.new E.C S p = .ok r0 ∧
      parseRequest E S r0 w = (.ok (), charsetAfter S ps, r', w') ∧ r'.files = some files ∧
      (∀ n, Dict.get? files n =
          if ((filesOf its).zip fs).filter (fun p => p.1.1 = n) = [] then none
          else some ((((filesOf its).zip fs).filter (fun p => p.1.1 = n)).map Prod.snd)) ∧
      List.Forall₂ (fun p f => f.name = p.2.1 ∧ f.size = p.2.2.length) (filesOf its) fs ∧
      ∀ (cwd : Cwd) (us : List (Uploaded × Use)),
        (useAll cwd us w'.heap).1.length = us.length ∧
        List.Forall₂ (fun p f => Session p.2.2 0 (usesOf f.ref us (useAll cwd us w'.heap).1)) (filesOf its) fs ∧
        ∀ gone : Nat → Bool, (∀ f ∈ fs, f.inMemory = false → gone f.ref = false) →
          ∃ heap', r'.close gone (useAll cwd us w'.heap).2 = (.ok (), heap') ∧
            (∀ i, i ∉ fs.map Uploaded.ref → heap'[i]? = (useAll cwd us w'.heap).2[i]?) ∧
            (∀ f ∈ fs, ∀ u, u ≠ .whole → f.use cwd u heap' = (.error .valueError, heap')) := by
  obtain ⟨r0, r', w', post, files, a1, a2, _, a4, _, a6, _, fs, c1, c2, c3, c4⟩ :=
    C78_multipart h hb hbo hcl hn h0 h13 ha its hok hbody hlim hmem os hos w hs heap hl ht
  have hfr : r0.bodyParsed = false := by
    have h1 := a1
    unfold Req.new Req.reInit at h1
    simp only at h1
    split at h1
    · cases h1
    · cases h1; rfl
  have hff := C94_files hfr a2 a4
  refine ⟨r0, r', w', files, fs, a1, a2, a6, c4, c1.imp fun _ _ q => ⟨q.name, q.size⟩, fun cwd us => ?_⟩
  refine ⟨(useAll_length cwd us w'.heap).2, c1.imp fun _ _ q => (useAll_session cwd _ _ us w'.heap 0 q.data).1, ?_⟩
  intro gone hg
  -- the files of the dictionary are the files of the form
  have hin : ∀ k l, (k, l) ∈ files → ∀ f ∈ l, f ∈ fs := by
    intro k l hk f hf
    have := c4 k
    rw [Dict.get?_of_mem c3 hk] at this
    split at this
    · cases this
    · rw [Option.some.injEq] at this
      rw [this] at hf
      obtain ⟨x, hx, rfl⟩ := List.mem_map.1 hf
      exact (List.of_mem_zip (List.mem_filter.1 hx).1).2
  have hout : ∀ f ∈ fs, ∃ k l, (k, l) ∈ files ∧ f ∈ l := by
    intro f hf
    have hlen := c1.length_eq
    obtain ⟨i, hi, rfl⟩ := List.getElem_of_mem hf
    have hmem : ((filesOf its)[i]'(by omega), fs[i]) ∈ (filesOf its).zip fs := by
      rw [List.mem_iff_getElem]
      exact ⟨i, by simp; omega, by simp⟩
    have hm2 : ((filesOf its)[i]'(by omega), fs[i]) ∈
        ((filesOf its).zip fs).filter (fun p => p.1.1 = ((filesOf its)[i]'(by omega)).1) :=
      List.mem_filter.2 ⟨hmem, by simp⟩
    have := c4 ((filesOf its)[i]'(by omega)).1
    rw [if_neg (List.ne_nil_of_mem hm2)] at this
    exact ⟨_, _, Dict.mem_of_get? this, List.mem_map.2 ⟨_, hm2, rfl⟩⟩
  have href : ∀ f ∈ fs, ∃ o, (useAll cwd us w'.heap).2[f.ref]? = some o := by
    intro f hf
    obtain ⟨x, _, hx⟩ := forall₂_mem_left c1 hf
    obtain ⟨_, pos', hp⟩ := useAll_session cwd _ _ us w'.heap 0 hx.data
    exact ⟨_, hp⟩
  obtain ⟨h', k1, k2, k3⟩ := C94_partial gone r' files (hff ▸ a6) (useAll cwd us w'.heap).2 (fun k l hk f hf =>
    ⟨by obtain ⟨o, ho⟩ := href f (hin k l hk f hf); exact (List.getElem?_eq_some_iff.1 ho).1,
      hg f (hin k l hk f hf)⟩)
  refine ⟨h', k1, fun i hi => k3 i (fun k l hk f hf hfi => hi (List.mem_map.2 ⟨f, hin k l hk f hf, hfi⟩)), ?_⟩
  intro f hf u hu
  obtain ⟨k, l, hk, hfl⟩ := hout f hf
  obtain ⟨o, _, ho⟩ := k2 k l hk f hfl
  exact use_closed f cwd u hu h' _ ho rfl

end
end Verif

namespace Verif
open Spec

/-- The hypotheses can be met: the sample upload. -/
example (cs : List Bytes) (h : cs.flatten = sampleUpload.text) :=
  C116_lifetime (E := ⟨pyCodecs, [], fun _ => (.ok (builtinOps Source goodOs 1), ⟨[.temp {}], []⟩), 0⟩)
    (sampleUpload_arrives cs h) (b := b!"=_Bd'1") (cl := b!"0300") (n := 300) (by decide +kernel)
    ⟨[61, 95, 66, 100, 39], 49, .inl (by decide), by decide, by decide, by decide, by decide⟩
    (by decide +kernel)
    (.more (.more (.more (.one (v := 0) rfl) (v := 3) rfl) (v := 0) rfl) (v := 0) rfl) (by decide) (by decide)
    sampleAround sampleForm sampleForm_ok rfl
    ⟨by intro n h; simp at h; subst h; decide, by intro n h; simp at h; subst h; decide⟩ ⟨_, rfl, by decide⟩
    goodOs (fun _ => rfl) ⟨[], []⟩ [.temp {}] [] rfl ⟨⟨.temp {}, by simp, trivial⟩, by simp⟩

/-- Two files used alternately. -/
example : (useAll (fun _ => .absent)
    [(⟨0, true, b!"a", 5, plainArgs b!"a"⟩, .read 2), (⟨1, false, b!"b", 4, plainArgs b!"b"⟩, .chunks (some 3)),
      (⟨0, true, b!"a", 5, plainArgs b!"a"⟩, .read 2), (⟨0, true, b!"a", 5, plainArgs b!"a"⟩, .lines),
      (⟨1, false, b!"b", 4, plainArgs b!"b"⟩, .read (-1)), (⟨1, false, b!"b", 4, plainArgs b!"b"⟩, .whole)]
    [{ data := b!"x\nyzw" }, { data := b!"1234" }]).1.map (·.toOption) =
    [some [b!"x\n"], some [b!"123", b!"4"], some [b!"yz"], some [b!"x\n", b!"yzw"], some [[]], some [b!"1234"]] := by
  decide +kernel

end Verif
