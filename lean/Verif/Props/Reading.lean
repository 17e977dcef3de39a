import Verif.Props.Settled
/-!
# What a multipart body means (C85)
-/

namespace Verif
open Spec

/-- The bytes of a form field whose part has the given content. -/
def Spec.FieldData (te : Option Bytes) (content data : Bytes) : Prop :=
  if te = some b!"base64" then Base64 content data else data = content

/-- What a form field adds to `POST`. -/
def Spec.fieldItem (md : MetaData) (data : Bytes) : PostItem :=
  { data := data, contentType := Py.ustrip ((md.get? b!"content-type").getD ([], [])).1,
    transferEncoding := (transferEnc md).getD [], extra := ((md.get? b!"content-type").getD ([], [])).2 }

/-- What a part adds to what was read before (`g`, no file is open in it), or how it ends the parsing.
`short`: the part has fewer than 1024 bytes. -/
inductive Spec.PartReads (C : Codecs) (S : Settings) (t : ItemType) (md : MetaData) (content : Bytes) (short : Prop)
    (g : Ghost) : Except Exc Ghost → Prop where
  /-- A part without a name adds nothing. -/
  | unnamed : partName md = none → short → PartReads C S t md content short g (.ok g)
  | badName {d n e} : partName md = some (d, n) → forceText n.strip = .error e →
      PartReads C S t md content short g (.error e)
  /-- A form field within the limits. -/
  | field {d n name data key} : partName md = some (d, n) → forceText n.strip = .ok name → t = .field →
      (∀ k, S.maxFields = some k → ((g.keys + 1 : Nat) : Int) ≤ k) →
      (∀ k, S.dataMaxMemory = some k → ((g.bytes + content.length + (name.length + 2) : Nat) : Int) ≤ k) →
      FieldData (transferEnc md) content data → C.strEncode S.defaultCharset name = .ok key →
      (Dict.get? g.post key ≠ none ∨ C.strEncode S.defaultCharset key = .ok key) →
      PartReads C S t md content short g (.ok { g with
        post := g.post.append key (fieldItem md data)
        bytes := g.bytes + content.length + (name.length + 2)
        keys := g.keys + 1 })
  /-- A new key that changes when it is encoded again: the field is lost, and the changed key gets an empty list. -/
  | lost {d n name data key key'} : partName md = some (d, n) → forceText n.strip = .ok name → t = .field →
      (∀ k, S.maxFields = some k → ((g.keys + 1 : Nat) : Int) ≤ k) →
      (∀ k, S.dataMaxMemory = some k → ((g.bytes + content.length + (name.length + 2) : Nat) : Int) ≤ k) →
      FieldData (transferEnc md) content data → C.strEncode S.defaultCharset name = .ok key →
      Dict.get? g.post key = none → C.strEncode S.defaultCharset key = .ok key' → key' ≠ key →
      PartReads C S t md content short g (.ok { g with
        post := Dict.set g.post key' []
        bytes := g.bytes + content.length + (name.length + 2)
        keys := g.keys + 1 })
  /-- One field more than allowed. -/
  | tooMany {d n name k} : partName md = some (d, n) → forceText n.strip = .ok name → t = .field →
      S.maxFields = some k → k < ((g.keys + 1 : Nat) : Int) →
      PartReads C S t md content short g (.error .tooManyFieldsSent)
  /-- More bytes in fields than allowed. -/
  | tooBig {d n name k} : partName md = some (d, n) → forceText n.strip = .ok name → t = .field →
      (∀ k, S.maxFields = some k → ((g.keys + 1 : Nat) : Int) ≤ k) →
      S.dataMaxMemory = some k → (g.bytes : Int) ≤ k → transferEnc md ≠ some b!"base64" →
      k < ((g.bytes + content.length + (name.length + 2) : Nat) : Int) →
      PartReads C S t md content short g (.error .requestDataTooBig)
  | badFile {d n name e} : partName md = some (d, n) → forceText n.strip = .ok name → t = .file →
      dispositionFileName d = .error e → PartReads C S t md content short g (.error e)
  /-- No file was chosen. -/
  | noFile {d n name} : partName md = some (d, n) → forceText n.strip = .ok name → t = .file →
      dispositionFileName d = .ok [] → short → PartReads C S t md content short g (.ok g)
  /-- A file that is not empty stays open until something follows its separator. -/
  | file {d n name fn data} : partName md = some (d, n) → forceText n.strip = .ok name → t = .file →
      dispositionFileName d = .ok fn → fn ≠ [] → name ≠ [] → FileData (transferEnc md) content data → data ≠ [] →
      PartReads C S t md content short g (.ok { g with old := some (name, fn, data) })

/-- What a body means: reading `D` after `g` gives `res`. -/
inductive Spec.Reads (C : Codecs) (S : Settings) (sep : Bytes) : Bytes → Ghost → Except Exc Ghost → Prop where
  | done {g} : Reads C S sep [] g (.ok g)
  /-- The rest of the body has neither a separator nor an empty line. -/
  | rest {D g} : D ≠ [] → ¬ sep <:+: D → ¬ b!"\r\n\r\n" <:+: D → Reads C S sep D g (.ok g.close)
  /-- The header of the part raises an error. -/
  | bad {D g e} : D ≠ [] → HeadErr C (cut sep D) e → Reads C S sep D g (.error e)
  | partErr {D g t md content e} : D ≠ [] → PartHead C (cut sep D) t md content →
      PartReads C S t md content ((cut sep D).length < 1024) g.close (.error e) → Reads C S sep D g (.error e)
  | part {D g g' t md content res} : D ≠ [] → PartHead C (cut sep D) t md content →
      PartReads C S t md content ((cut sep D).length < 1024) g.close (.ok g') →
      Reads C S sep (after sep D) g' res → Reads C S sep D g res

section
variable {ρ σ F : Type} {H : HandlerOps ρ σ F} {Ready : σ → List (Bytes × F × Bytes) → Prop}
  {Busy : σ → List Nat → List (Bytes × F × Bytes) → Bytes → Bytes → Prop}

theorem any_false {o : Option Int} {n : Nat} (h : ∀ k, o = some k → (n : Int) ≤ k) : o.any (· < (n : Int)) = false := by
  cases o with
  | none => rfl
  | some k => have := h k rfl; simp; omega

theorem PartRun.reads {T : NewFileArgs → Prop} {C : Codecs} {S : Settings} {t : ItemType} {md : MetaData} {content : Bytes} {short : Prop}
    {g : Ghost} {res : Except Exc Ghost} (hP : PartReads C S t md content short g.close res)
    (hs : Stores H Ready Busy T) {fuel64 : Nat} {st st' : PState σ F} {b : Bool} {r : Except Exc Unit}
    (hT : ∀ d n name fn, t = .file → partName md = some (d, n) → forceText n.strip = .ok name →
      dispositionFileName d = .ok fn → fn ≠ [] → T (fileArgs name fn (transferEnc md) md))
    (hl : t ≠ .raw → content.length ≤ fuel64) (ha : Abs Ready Busy st g)
    (hr : PartRun C S H fuel64 t md content st b r st') :
    PartOut Ready Busy (b = true ∨ short) r st' res := by
  obtain ⟨st1, c1, c2⟩ := ha.complete hs
  cases hP with
  | unnamed h1 h2 =>
    obtain ⟨rfl, rfl, rfl⟩ := hr.skip_inv c1 h1
    exact ⟨rfl, .inr h2, c2⟩
  | @badName d n e h1 h2 =>
    cases hr with
    | completeErr k1 => rw [c1] at k1; simp at k1
    | skip _ k => rw [h1] at k; simp at k
    | nameErr _ k1 k2 =>
      rw [h1] at k1; simp only [Option.some.injEq, Prod.mk.injEq] at k1
      obtain ⟨rfl, rfl⟩ := k1
      rw [h2] at k2
      simp only [Except.error.injEq] at k2
      rw [← k2]; rfl
    | _ _ k1 k2 =>
      rw [h1] at k1; simp only [Option.some.injEq, Prod.mk.injEq] at k1
      obtain ⟨rfl, rfl⟩ := k1
      rw [h2] at k2; simp at k2
  | @field d n name data key h1 h2 h3 h4 h5 h6 h7 h8 =>
    have q1 : S.maxFields.any (· < ((st1.numKeys + 1 : Nat) : Int)) = false := by
      rw [c2.keys]; exact any_false h4
    have q2 : S.dataMaxMemory.any (· < (st1.numBytes : Int)) = false := by
      rw [c2.bytes]; exact any_false (fun k hk => by have := h5 k hk; omega)
    obtain ⟨raw, k1, k2, k3⟩ := hr.field_inv c1 h1 h2 h3 q1 q2
    have hraw : raw = content := by
      rw [k1, c2.bytes]
      cases hm : S.dataMaxMemory with
      | none => rfl
      | some k =>
        have := h5 k hm
        apply List.take_of_length_le
        omega
    have hd : (if transferEnc md = some b!"base64" then Py.b64decode content else some content) = some data := by
      unfold FieldData at h6
      split at h6
      · rename_i hb; rw [if_pos hb]; exact h6.decode
      · rename_i hb; rw [if_neg hb, h6]
    rw [hraw] at k2
    have hpa : postAppend C S st1.post name (fieldItem md data) = .ok (MVD.append st1.post key (fieldItem md data)) := by
      rw [c2.post]
      simp only [postAppend, bytesToText, h7]
      rcases h8 with h8 | h8
      · rw [if_pos (Option.isSome_iff_ne_none.2 h8)]
      · simp only [h8, if_true, ite_self]
    simp only [fieldItem] at hpa
    simp only [storeField, hd, hpa] at k2
    rw [if_neg (by
      rw [Bool.not_eq_true, c2.bytes]
      exact any_false h5)] at k2
    simp only [Prod.mk.injEq] at k2
    obtain ⟨rfl, rfl⟩ := k2
    exact ⟨rfl, .inl (k3 rfl).2, by simp [c2.post, fieldItem], by simp [c2.bytes], by simp [c2.keys], c2.files⟩
  | @lost d n name data key key' h1 h2 h3 h4 h5 h6 h7 h8 h9 h10 =>
    have q1 : S.maxFields.any (· < ((st1.numKeys + 1 : Nat) : Int)) = false := by
      rw [c2.keys]; exact any_false h4
    have q2 : S.dataMaxMemory.any (· < (st1.numBytes : Int)) = false := by
      rw [c2.bytes]; exact any_false (fun k hk => by have := h5 k hk; omega)
    obtain ⟨raw, k1, k2, k3⟩ := hr.field_inv c1 h1 h2 h3 q1 q2
    have hraw : raw = content := by
      rw [k1, c2.bytes]
      cases hm : S.dataMaxMemory with
      | none => rfl
      | some k =>
        have := h5 k hm
        apply List.take_of_length_le
        omega
    have hd : (if transferEnc md = some b!"base64" then Py.b64decode content else some content) = some data := by
      unfold FieldData at h6
      split at h6
      · rename_i hb; rw [if_pos hb]; exact h6.decode
      · rename_i hb; rw [if_neg hb, h6]
    rw [hraw] at k2
    have hpa : postAppend C S st1.post name (fieldItem md data) = .ok (Dict.set st1.post key' []) := by
      rw [c2.post]
      simp only [postAppend, bytesToText, h7, h8, h9]
      simp [h10]
    simp only [fieldItem] at hpa
    simp only [storeField, hd, hpa] at k2
    rw [if_neg (by
      rw [Bool.not_eq_true, c2.bytes]
      exact any_false h5)] at k2
    simp only [Prod.mk.injEq] at k2
    obtain ⟨rfl, rfl⟩ := k2
    exact ⟨rfl, .inl (k3 rfl).2, by simp [c2.post, fieldItem], by simp [c2.bytes], by simp [c2.keys], c2.files⟩
  | @tooMany d n name k h1 h2 h3 h4 h5 =>
    subst h3
    have q1 : S.maxFields.any (· < ((st1.numKeys + 1 : Nat) : Int)) = true := by
      rw [c2.keys, h4]; simpa using h5
    cases hr <;> simp_all [PartOut]
  | @tooBig d n name k h1 h2 h3 h4 h5 h6 h7 h8 =>
    have q1 : S.maxFields.any (· < ((st1.numKeys + 1 : Nat) : Int)) = false := by
      rw [c2.keys]; exact any_false h4
    have q2 : S.dataMaxMemory.any (· < (st1.numBytes : Int)) = false := by
      rw [c2.bytes, h5]; simp; omega
    obtain ⟨raw, k1, k2, k3⟩ := hr.field_inv c1 h1 h2 h3 q1 q2
    rw [h5] at k1
    simp only [storeField, if_neg h7] at k2
    rw [if_pos (by
      rw [c2.bytes, h5, k1, c2.bytes]
      simp only [Option.any_some, decide_eq_true_eq, List.length_take]
      omega)] at k2
    simp only [Prod.mk.injEq] at k2
    exact k2.1.symm
  | @badFile d n name e h1 h2 h3 h4 =>
    subst h3
    cases hr <;> simp_all [PartOut]
  | @noFile d n name h1 h2 h3 h4 h5 =>
    subst h3
    cases hr <;> simp_all [PartOut]
  | @file d n name fn data h1 h2 h3 h4 h5 h6 h7 h8 =>
    obtain ⟨r0, cs, w, k1, k2⟩ := hr.file_inv c1 h1 h2 h3 h4 h5
    obtain ⟨m, m1, m2, m3⟩ := c2.files
    have m3 : Ready st1.world m.done := m3.2
    obtain ⟨rfl, hB⟩ := RecvRun.stores64 hs k1 (data := data) h7 (hl (by rw [h3]; simp)) (hT d n name fn h3 h1 h2 h4 h5) m3
    rcases k2 with ⟨_, rfl, rfl, rfl⟩ | ⟨h, _⟩ | ⟨e, h, _⟩
    · exact ⟨rfl, .inl rfl, c2.post, c2.bytes, c2.keys, m, m1, m2, h6, h8, rfl, hB⟩
    · simp at h
    · simp at h

theorem Parses.reads {C : Codecs} {S : Settings} {sep : Bytes} {D : Bytes} {g : Ghost} {res : Except Exc Ghost}
    (hD : Reads C S sep D g res) (hs : Stores H Ready Busy) {fuel64 : Nat} {st st' : PState σ F} {r : Except Exc Unit}
    {D' : Bytes} (hf : D.length ≤ fuel64) (ha : Abs Ready Busy st g)
    (hp : Parses C S H fuel64 sep D st r D' st') :
    PartOut Ready Busy True r st' res := by
  induction hD generalizing st with
  | done =>
    obtain ⟨rfl, rfl⟩ := hp.nil_inv
    exact ⟨rfl, trivial, ha⟩
  | @rest D g h0 h1 h2 =>
    have := Parses.rest_ghost hs D.length D st g (le_refl _) h1 h2 ha hp
    rw [if_neg h0] at this
    exact ⟨this.1, trivial, this.2⟩
  | @bad D g e h1 h2 =>
    obtain ⟨i, k1, k2⟩ := h2
    cases hp with
    | done => exact absurd rfl h1
    | headErr _ h _ =>
      obtain ⟨i', k1', k2'⟩ := h
      rw [k1] at k1'
      simp only [Option.some.injEq] at k1'
      subst k1'
      rw [k2] at k2'
      simp only [Except.error.injEq] at k2'
      rw [← k2']; rfl
    | partErr _ h => exact absurd ⟨i, k1, k2⟩ (h.no_err e)
    | part _ h => exact absurd ⟨i, k1, k2⟩ (h.no_err e)
  | @partErr D g t md content e h1 h2 h3 =>
    have hcl : (cut sep D).length ≤ D.length := (cut_prefix sep D).length_le
    obtain ⟨t', md', content', b, r1, D1, st1, e1, e2, e3, e4⟩ := hp.step_inv h1 h2.no_err
    obtain ⟨rfl, rfl, rfl⟩ := h2.unique e1
    have := PartRun.reads h3 hs (fun _ _ _ _ _ _ _ _ _ => trivial) (fun ht => by have := h2.length ht; omega) ha e2
    simp only [PartOut] at this
    subst this
    rcases e4 with ⟨e, he, he2, _⟩ | ⟨he, _⟩
    · simp only [Except.error.injEq] at he
      show r = .error _
      rw [he2, he]
    · simp at he
  | @part D g g1 t md content res h1 h2 h3 _ ih =>
    have hcl : (cut sep D).length ≤ D.length := (cut_prefix sep D).length_le
    have hal : (after sep D).length ≤ D.length := by
      unfold after; split <;> simp
    obtain ⟨t', md', content', b, r1, D1, st1, e1, e2, e3, e4⟩ := hp.step_inv h1 h2.no_err
    obtain ⟨rfl, rfl, rfl⟩ := h2.unique e1
    obtain ⟨rfl, j2, j3⟩ := PartRun.reads h3 hs (fun _ _ _ _ _ _ _ _ _ => trivial) (fun ht => by have := h2.length ht; omega) ha e2
    rcases e4 with ⟨e, he, he2, _⟩ | ⟨_, _, q2, q3⟩
    · simp at he
    · rw [q2 j2] at q3
      exact ih (by omega) j3 q3

end

/-- **C85.** The visible result of parsing a body is what the body means, for every body that has a
meaning by `Spec.Reads` (parts in any order and with any headers, parts that are passed over, fields over
the limits, files as they are or in base64, errors), whatever the chunk size, the pieces in which the body
arrives, the history of the stream and the built-in handlers, one of which takes files. -/
theorem C85_meaning {ρ : Type} [Producer ρ] {L : Lawful ρ} (C : Codecs) (hC : ∀ b, C.Avoids (.stopUpload b))
    (S : Settings) (hS : ∀ k, S.dataMaxMemory = some k → 0 ≤ k) (hq : emptyQueryDict C S = .ok ())
    (os : Os) (hos : ∀ e, os.tempFile e = .ok ()) (fuel64 : Nat) (m : MultiPart) (hc : 1 ≤ m.chunkSize)
    (hl : m.contentLength ≠ 0) (hs : List Builtin) (heap : Heap) (ht : Takes S m.contentLength hs)
    (input : LazyStream ρ) (hi : SOK L input) (hf : (L.sc input).length ≤ fuel64)
    (res : Except Exc Ghost) (hb : Reads C S (b!"--" ++ m.boundary) (L.sc input) ⟨[], [], none, 0, 0⟩ res) :
    viewOf (m.parse C S (builtinOps ρ os hs.length) fuel64 input ⟨hs, heap⟩).1
        (m.parse C S (builtinOps ρ os hs.length) fuel64 input ⟨hs, heap⟩).2.2.heap = res.map Ghost.view :=
  ghost_view C hC S hS hq os hos fuel64 m hc hl hs heap ht input hi res
    (fun st r D' st' ha hp => Parses.reads hb (builtin_stores (ρ := ρ) hos hs.length) hf ha hp)

/-- The body of the example for C28 means: no field, one file. -/
theorem settledBody_reads : Reads latinCodecs {} (b!"--" ++ b!"B") settledBody ⟨[], [], none, 0, 0⟩
    (.ok ⟨[], [(b!"up", b!"n", b!"Hel")], none, 0, 0⟩) := by
  refine .part (t := .raw) (md := []) (content := []) (by decide +kernel) ?_ (.unnamed rfl (by decide +kernel)) ?_
  · have : cut (b!"--" ++ b!"B") settledBody = [] := by decide +kernel
    rw [this]; exact .noHeader (by decide +kernel)
  have h1 : after (b!"--" ++ b!"B") settledBody = settledBody.drop 3 := by decide +kernel
  rw [h1]
  have c1 : cut (b!"--" ++ b!"B") (settledBody.drop 3) = b!"\r\nX: y\r\n\r\njunk" := by decide +kernel
  refine .part (by decide +kernel) (by
    rw [c1]; exact .rawHeader (i := 6) (by decide +kernel) rfl) (.unnamed rfl (by decide +kernel)) ?_
  have h2 : after (b!"--" ++ b!"B") (settledBody.drop 3) = settledBody.drop 22 := by decide +kernel
  rw [h2]
  have c2 : cut (b!"--" ++ b!"B") (settledBody.drop 22) =
      b!"\r\nContent-Disposition: form-data; name=\"up\"; filename=\"n\"\r\nContent-Transfer-Encoding: base64" ++
        b!"\r\n\r\nSGVs" := by decide +kernel
  refine .part (by decide +kernel) (by
    rw [c2]; exact .header (i := 92) (by decide +kernel) rfl (by decide))
    (.file (name := b!"up") (fn := b!"n") (data := b!"Hel") rfl rfl rfl rfl (by decide) (by decide) ?_ (by decide)) ?_
  · unfold FileData
    rw [if_pos (by decide +kernel)]
    exact .three 72 101 108 .nil
  exact .rest (by decide +kernel) (by decide +kernel) (by decide +kernel)

/-- The second field is one too many. -/
theorem tooMany_reads : Reads latinCodecs { maxFields := some 1 } (b!"--" ++ b!"B")
    (renderForm b!"B" [.field b!"a" b!"x", .field b!"b" b!"y"]) ⟨[], [], none, 0, 0⟩ (.error .tooManyFieldsSent) := by
  refine .part (t := .raw) (md := []) (content := []) (by decide +kernel) ?_ (.unnamed rfl (by decide +kernel)) ?_
  · have : cut (b!"--" ++ b!"B") (renderForm b!"B" [.field b!"a" b!"x", .field b!"b" b!"y"]) = [] := by decide +kernel
    rw [this]; exact .noHeader (by decide +kernel)
  have h1 : after (b!"--" ++ b!"B") (renderForm b!"B" [.field b!"a" b!"x", .field b!"b" b!"y"]) =
    FormItem.text (.field b!"a" b!"x") ++ b!"\r\n--B" ++ (FormItem.text (.field b!"b" b!"y") ++ b!"\r\n--B--\r\n") := by
    decide +kernel
  rw [h1]
  have c1 : cut (b!"--" ++ b!"B") (FormItem.text (.field b!"a" b!"x") ++ b!"\r\n--B" ++
      (FormItem.text (.field b!"b" b!"y") ++ b!"\r\n--B--\r\n")) =
      b!"\r\nContent-Disposition: form-data; name=\"a\"\r\n\r\nx" := by decide +kernel
  refine .part (by decide +kernel) (by
    rw [c1]; exact .header (i := 42) (by decide +kernel) rfl (by decide))
    (.field (name := b!"a") (data := b!"x") (key := b!"a") rfl rfl rfl (by intro k hk; cases hk; decide)
      (by intro k hk; cases hk; decide) (by unfold FieldData; rw [if_neg (by decide +kernel)]; rfl) (by rfl)
      (.inr (by rfl))) ?_
  have h2 : after (b!"--" ++ b!"B") (FormItem.text (.field b!"a" b!"x") ++ b!"\r\n--B" ++
      (FormItem.text (.field b!"b" b!"y") ++ b!"\r\n--B--\r\n")) =
      FormItem.text (.field b!"b" b!"y") ++ b!"\r\n--B--\r\n" := by decide +kernel
  rw [h2]
  have c2 : cut (b!"--" ++ b!"B") (FormItem.text (.field b!"b" b!"y") ++ b!"\r\n--B--\r\n") =
      b!"\r\nContent-Disposition: form-data; name=\"b\"\r\n\r\ny" := by decide +kernel
  exact .partErr (by decide +kernel) (by
    rw [c2]; exact .header (i := 42) (by decide +kernel) rfl (by decide))
    (.tooMany (name := b!"b") (k := 1) rfl rfl rfl rfl (by decide))

end Verif
