import Verif.Props.Meant
import Verif.Props.Described
/-! C134: how many fields and files a form can have. -/

namespace Verif
open Spec

/-! ### What an entry costs -/

theorem parsePartHeader_name {C : Codecs} {line name value : Bytes} {params : Dict Bytes PyStr}
    (h : parsePartHeader C line = .ok (name, value, params)) : name.length + 1 ≤ line.length := by
  unfold parsePartHeader at h
  split at h
  · simp at h
  · rename_i main d hp
    split at h
    · simp at h
    · rename_i n v hs
      simp only [Except.ok.injEq, Prod.mk.injEq] at h
      obtain ⟨rfl, rfl, rfl⟩ := h
      have h1 : n.length + 1 ≤ main.length := by
        obtain ⟨h, _⟩ := splitFirst_some hs
        rw [h]; simp
      refine h1.trans ?_
      unfold parseHeader at hp
      split at hp
      · simp at hp
      · rename_i k plist hk
        simp only at hp
        split at hp
        · simp at hp
        · split at hp
          · simp at hp
          · simp only [Except.ok.injEq, Prod.mk.injEq] at hp
            rw [← hp.1]
            unfold parseHeaderParams at hk
            simp only [List.cons.injEq] at hk
            rw [← hk.1]
            have := (lower_infix ((stripBy_infix Py.isSpace _).trans (List.take_prefix _ _).isInfix :
              Py.strip (line.take (paramEnd line)) <:+: line)).length_le
            simpa [Py.lower, Py.strip] using this

theorem partHeaders_name {C : Codecs} {B : Bytes} : ∀ (ls : List Bytes) (t : ItemType) (md : MetaData)
    (t' : ItemType) (md' : MetaData), partHeaders C ls t md = .ok (t', md') →
    (∀ l ∈ ls, l <:+: B) → (∀ n v, md.get? n = some v → n.length + 1 ≤ B.length) →
    ∀ n v, md'.get? n = some v → n.length + 1 ≤ B.length := by
  intro ls
  induction ls with
  | nil =>
    intro t md t' md' h _ h0
    simp only [partHeaders, Except.ok.injEq, Prod.mk.injEq] at h
    obtain ⟨rfl, rfl⟩ := h
    exact h0
  | cons l ls ih =>
    intro t md t' md' h hl h0
    unfold partHeaders at h
    split at h
    · split at h
      · exact ih _ _ _ _ h (fun l h => hl l (by simp [h])) h0
      · simp at h
    · rename_i name value params hp
      simp only at h
      refine ih _ _ _ _ h (fun l h => hl l (by simp [h])) ?_
      intro n v hv
      rw [Dict.get?_set] at hv
      split at hv
      · rename_i hn
        subst hn
        exact (parsePartHeader_name hp).trans (hl l (by simp)).length_le
      · exact h0 n v hv

/-- A part that makes an entry has a header that says `content-disposition:`. -/
theorem PartHead.long {C : Codecs} {P : Bytes} {t : ItemType} {md : MetaData} {content : Bytes}
    (h : PartHead C P t md content) (hn : partName md ≠ none) : 24 ≤ P.length := by
  have key : ∀ i t, Py.find b!"\r\n\r\n" (P.take 1024) = some i →
      partHeaders C (Py.splitPair 13 10 (P.take i)) .raw [] = .ok (t, md) → 24 ≤ P.length := by
    intro i t hf hp
    have hb := Py.find_bound hf
    have hd : ∃ v, md.get? b!"content-disposition" = some v := by
      rcases hv : md.get? b!"content-disposition" with _ | v
      · exact absurd (by unfold partName; rw [hv]; rfl) hn
      · exact ⟨v, rfl⟩
    obtain ⟨v, hv⟩ := hd
    have := partHeaders_name (B := P.take i) _ _ _ _ _ hp (fun l hl => splitPair_infix 13 10 _ l hl)
      (by intro n v h; cases h) _ _ hv
    simp only [List.length_take, List.length_cons, List.length_nil] at this hb
    omega
  cases h with
  | noHeader => exact absurd rfl hn
  | header h1 h2 => exact key _ _ h1 h2
  | rawHeader h1 h2 => exact key _ _ h1 h2

section
variable {ρ σ F : Type} {H : HandlerOps ρ σ F}

/-- The entries of the form, and the file that is being read. -/
def PState.entries (st : PState σ F) : Nat :=
  (items st.post).length + (items st.files).length + (match st.oldField with | some (_ :: _) => 1 | _ => 0)

theorem completeOld_entries (st : PState σ F) :
    (completeOld H st).2.entries ≤ st.entries ∧
    ((completeOld H st).1 = .ok () → ∀ c n, (completeOld H st).2.oldField ≠ some (c :: n)) := by
  obtain ⟨world, post, files, oldField, counters, numBytes, numKeys⟩ := st
  unfold completeOld
  cases oldField with
  | none => exact ⟨Nat.le_refl _, by simp⟩
  | some m =>
    cases m with
    | nil => exact ⟨Nat.le_refl _, by simp⟩
    | cons c m =>
      simp only [handleFileComplete]
      generalize completeLoop H counters (List.range H.count) world = z at *
      rcases z with ⟨(e | (_ | f)), w1⟩
      · exact ⟨Nat.le_refl _, by simp⟩
      · exact ⟨by simp [PState.entries], by simp⟩
      · refine ⟨?_, by simp⟩
        simp only [PState.entries, items_append_length]
        omega

theorem storeField_entries (C : Codecs) (S : Settings) (name te md raw) (st : PState σ F) :
    (items (storeField C S name te md raw st).2.post).length ≤ (items st.post).length + 1 := by
  unfold storeField
  simp only
  split
  · simp
  · split
    · simp
    · split
      · simp
      · rename_i post hp
        obtain ⟨key, _, hap⟩ := postAppend_ok hp
        rcases hap with rfl | ⟨_, k', _, _, rfl⟩
        · simp [items_append_length]
        · have := items_clear_length k' st.post
          simp only
          omega

/-- A part makes at most one entry, and none if it is passed over. -/
theorem PartRun.entries {C : Codecs} {S : Settings} {fuel64 : Nat} {t md content} {st st' : PState σ F} {b : Bool}
    {r : Except Exc Unit} (h : PartRun C S H fuel64 t md content st b r st') :
    st'.entries ≤ st.entries ∨ (st'.entries ≤ st.entries + 1 ∧ partName md ≠ none ∧ (b = true ∨ r ≠ .ok ())) := by
  obtain ⟨hc, ho⟩ := completeOld_entries (H := H) st
  cases h with
  | completeErr h1 => rw [h1] at hc; exact .inl hc
  | skip h1 => rw [h1] at hc; exact .inl hc
  | nameErr h1 => rw [h1] at hc; exact .inl hc
  | tooMany h1 => rw [h1] at hc; exact .inl hc
  | negative h1 => rw [h1] at hc; exact .inl hc
  | @field st1 d m name raw _ _ h1 hn _ h4 _ _ h7 h8 _ =>
    have e1 := storeField_world C S name (transferEnc md) md raw { st1 with numKeys := st1.numKeys + 1 }
    have e2 := storeField_oldField C S name (transferEnc md) md raw { st1 with numKeys := st1.numKeys + 1 }
    have e3 := storeField_entries C S name (transferEnc md) md raw { st1 with numKeys := st1.numKeys + 1 }
    rw [h8] at e1 e2 e3
    rw [h1] at hc
    right
    refine ⟨?_, by rw [hn]; simp, ?_⟩
    · unfold PState.entries at hc ⊢
      simp only at e1 e2 e3
      rw [e1.2, e2]
      simp only at hc
      omega
    · by_cases hr : r = .ok ()
      · exact .inl (by simp [hr])
      · exact .inr hr
  | fileNameErr h1 => rw [h1] at hc; exact .inl hc
  | noFileName h1 => rw [h1] at hc; exact .inl hc
  | @file st1 d m name fn cs w h1 hn _ h4 _ _ h7 =>
    rw [h1] at hc
    right
    refine ⟨?_, by rw [hn]; simp, .inl rfl⟩
    unfold PState.entries at hc ⊢
    simp only at hc ⊢
    split <;> omega
  | fileSkip h1 => rw [h1] at hc; exact .inl hc
  | fileErr h1 => rw [h1] at hc; exact .inl hc

theorem cut_after_whole (sep D : Bytes) :
    (cut sep D).length + sep.length + (after sep D).length ≤ D.length ∨ ((cut sep D).length ≤ D.length ∧ after sep D = []) := by
  rcases cut_after_Cut sep D with ⟨pre, h1, _, h3⟩ | ⟨_, h, h'⟩
  · left
    have : (stripEol pre).length ≤ pre.length := by
      unfold stripEol
      split <;> (try (rename_i h; have := congrArg List.length h; simp at this; simp; omega)) <;> simp
    have h2 := congrArg List.length h1
    rw [h3]
    simp only [List.length_append] at h2
    omega
  · exact .inr ⟨by rw [h], h'⟩

/-- Each entry takes a separator and a header; only the last one may have no separator behind it. -/
theorem Parses.entries {C : Codecs} {S : Settings} {fuel64 : Nat} {sep D D' : Bytes}
    {st st' : PState σ F} {r : Except Exc Unit} (h : Parses C S H fuel64 sep D st r D' st') :
    st'.entries ≤ st.entries ∨ st'.entries * (sep.length + 24) ≤ st.entries * (sep.length + 24) + D.length + sep.length := by
  induction h with
  | done => exact .inl (Nat.le_refl _)
  | headErr => exact .inl (Nat.le_refl _)
  | @partErr D D' st t md content b e st' h1 h2 h3 h4 =>
    rcases h3.entries with h | ⟨h, hn, _⟩
    · exact .inl h
    · right
      have h5 := h2.long hn
      have h6 := (cut_prefix sep D).length_le
      have := Nat.mul_le_mul_right (sep.length + 24) h
      rw [Nat.add_mul] at this
      omega
  | @part D D' D'' st t md content b st' r st'' h1 h2 h3 h4 h5 h6 hp ih =>
    have hd := h4.length_le
    rcases h3.entries with h | ⟨h, hn, hb⟩
    · rcases ih with ih | ih
      · exact .inl (ih.trans h)
      · right
        have := Nat.mul_le_mul_right (sep.length + 24) h
        omega
    · right
      have hb : b = true := hb.elim id (fun h => absurd rfl h)
      have h5 := h2.long hn
      have h7 := Nat.mul_le_mul_right (sep.length + 24) h
      rw [Nat.add_mul] at h7
      rw [h6 (.inl hb)] at ih hp
      rcases cut_after_whole sep D with h8 | ⟨h8, h9⟩
      · rcases ih with ih | ih
        · have := Nat.mul_le_mul_right (sep.length + 24) ih
          omega
        · omega
      · rw [h9] at hp
        cases hp with
        | done => omega
        | headErr h => exact absurd rfl h
        | partErr h => exact absurd rfl h
        | part h => exact absurd rfl h

end

/-! ### The bound -/

section
variable {ρ : Type} [Producer ρ] {L : Lawful ρ}

/-- **C134**, what is true.  Each field and each file of a form takes up the separator and the 24 bytes of
`Content-Disposition:` and an empty line, so the number of entries is bounded by the length of the body: whatever the
body, the settings and the handlers that leave the parsing to the parser. -/
theorem C134_parse_partial {σ F : Type} {H : HandlerOps ρ σ F} (C : Codecs) (S : Settings) (fuel64 : Nat) (text : Bool)
    (m : MultiPart) (hc : 1 ≤ m.chunkSize) (hl : LeavesParsing L H) (input : LazyStream ρ) (w : σ) (hi : SOK L input)
    {post : MVD PostItem} {files : MVD F} {s' : LazyStream ρ} {w' : σ}
    (h : m.run C S H fuel64 text input w = (.ok (post, files), s', w')) :
    ((items post).length + (items files).length) * (m.boundary.length + 26) ≤ (L.sc input).length + (m.boundary.length + 2) := by
  have key : ∀ {s' w'}, m.parse C S H fuel64 input w = (.ok (post, files), s', w') →
      ((items post).length + (items files).length) * (m.boundary.length + 26) ≤ (L.sc input).length + (m.boundary.length + 2) := by
    intro s' w' h
    rcases parse_elim C S H fuel64 m hc hl input w hi with
      ⟨e, _, _, h1, _⟩ | ⟨_, _, h1⟩ | ⟨_, _, input1, w1, r, D', st', s2, R, w2, h2, _, hsuf, h3, h4, h5, _⟩
    · rw [h] at h1; simp at h1
    · rw [h] at h1
      simp only [Prod.mk.injEq, Except.ok.injEq] at h1
      obtain ⟨⟨rfl, rfl⟩, _, rfl⟩ := h1
      simp [items]
    · rw [h] at h3
      simp only [Prod.mk.injEq] at h3
      obtain ⟨rfl, _, rfl⟩ := h3
      have hlen := hsuf.length_le
      have hE : st'.entries * (m.boundary.length + 26) ≤ (L.sc input).length + (m.boundary.length + 2) := by
        have h0 : (PState.start H w1).entries = 0 := by simp [PState.start, PState.entries, items]
        have h6 := h4.entries
        rw [h0] at h6
        simp only [List.length_append, List.length_cons, List.length_nil] at h6
        rcases h6 with h6 | h6
        · rw [Nat.le_zero.1 h6]; simp
        · have : 0 + 1 + 1 + m.boundary.length + 24 = m.boundary.length + 26 := by omega
          rw [this] at h6
          omega
      have hpf : ∀ w0 w3, (match uploadCompleteLoop H (List.range H.count) w0 with
            | (.error e, w) => (.error e, w)
            | (.ok (), w) => (.ok (st'.post, st'.files), w) : Except Exc (MVD PostItem × MVD F) × σ) = (.ok (post, files), w3) →
          post = st'.post ∧ files = st'.files := by
        intro w0 w3 he
        rcases hz : uploadCompleteLoop H (List.range H.count) w0 with ⟨(e | _), w4⟩
        · rw [hz] at he; simp at he
        · rw [hz] at he
          simp only [Prod.mk.injEq, Except.ok.injEq] at he
          exact ⟨he.1.1.symm, he.1.2.symm⟩
      have : post = st'.post ∧ files = st'.files := by
        unfold endParse at h5
        split at h5
        · exact hpf _ _ h5
        · rcases hz : closeFiles H (List.range H.count) st'.world with ⟨(e | _), w4⟩
          · rw [hz] at h5; simp at h5
          · rw [hz] at h5
            exact hpf _ _ h5
        · simp at h5
      rw [this.1, this.2]
      refine (Nat.mul_le_mul_right _ ?_).trans hE
      unfold PState.entries
      omega
  cases text with
  | false => exact key h
  | true =>
    rcases C106_same_partial C S H fuel64 m hc hl input w hi with h1 | h1
    · rw [h] at h1
      cases h1
    · exact key (h1 ▸ h)

/-- The number of entries of a form; other `POST` data has none. -/
def formEntries : Option PostDict → Nat
  | some (.form q) => (items q).length
  | _ => 0

variable {C : Codecs} {up : List UStr} {os : Os} {mods : Modules (Except Exc Builtin)} {names : List Bytes} {fuel64 : Nat}

/-- **C134 for requests**, what is true: however parsing ends, the number of fields and files of a form is bounded by the
length of what was sent after the header. -/
theorem C134_request_partial (L : Lawful ρ) (hm : MakesNew mods) (S : Settings) (hS : 1 ≤ S.maxHeaderSize) {p : ρ} (hI : L.Inv p)
    {r : Req ρ BWorld Uploaded} (hr : Req.new C S p = .ok r) (w : BWorld) :
    let z := parseRequest (namedEnv ρ C up os mods names fuel64) S r w
    (formEntries z.2.2.1.post + (items (z.2.2.1.files.getD [])).length) * 27 ≤ (afterHead (L.content p)).length + 3 := by
  intro z
  rcases parseRequest_origin (os := os) (up := up) (names := names) (fuel64 := fuel64) L hm S hS hI hr w with
    ⟨h1, h2⟩ | ⟨hs, heap, h, m, text, input, s', q, f, h1, h2, h3, h4, h5, h6, h7, h8⟩
  · have e : formEntries z.2.2.1.post = 0 := by
      unfold formEntries
      split
      · rename_i q hq
        exact absurd hq (h1 q)
      · rfl
    rw [e, show (items (z.2.2.1.files.getD [])) = [] from h2]
    simp
  · have g := C134_parse_partial (L := L) _ _ _ text m (C33_chunk_size _ _ _ _ _ h3).2.1 (builtin_leaves L os hs.length) input _ h4 h6
    have e1 : z.2.2.1.post = some (.form q) := h7
    have e2 : z.2.2.1.files = some f := h8
    rw [h5] at g
    rw [e1, e2]
    show ((items q).length + (items f).length) * 27 ≤ _
    have hb : 1 ≤ m.boundary.length := by
      obtain ⟨_, _, _, _, _, _, _, hne, _, _, rfl⟩ := (create_ok_iff _ _ _ _ _).1 h3
      simp only [List.length_map]
      exact List.length_pos_iff.2 hne
    obtain ⟨j, hj⟩ : ∃ j, m.boundary.length = j + 1 := ⟨m.boundary.length - 1, by omega⟩
    rw [hj] at g
    generalize (items q).length + (items f).length = k at *
    rcases k with _ | k
    · omega
    · have : (k + 1) * (j + 1 + 26) = (k + 1) * 27 + k * j + j := by
        rw [show j + 1 + 26 = 27 + j by omega, Nat.mul_add, Nat.succ_mul k j]
        omega
      generalize k * j = kj at *
      omega

end

/-- A body of a thousand bytes with the boundary `B` makes at most 37 entries, whatever the settings. -/
example (C : Codecs) (S : Settings) (os : Os) (hs : List Builtin) (heap : Heap) (cs : List Bytes) (h : cs.flatten.length = 1000)
    {post files s' w'} (hr : (⟨b!"B", 64, 1000⟩ : MultiPart).run C S (builtinOps Source os hs.length) 9 false (LazyStream.mk' ⟨cs⟩)
      ⟨hs, heap⟩ = (.ok (post, files), s', w')) : (items post).length + (items files).length ≤ 37 := by
  have g := C134_parse_partial (L := Source.lawful) C S 9 false ⟨b!"B", 64, 1000⟩ (by decide) (builtin_leaves _ os hs.length)
    (LazyStream.mk' ⟨cs⟩) ⟨hs, heap⟩ (SOK.fresh cs) hr
  rw [sc_fresh, h] at g
  simp only [List.length_cons, List.length_nil] at g
  omega

example := C134_request_partial (C := pyCodecs) (up := []) (os := goodOs) (names := defaultHandlers) (fuel64 := 0) Source.lawful
  sampleModules_new {} (by decide) (p := ⟨[twoFileRequest]⟩) trivial (r := twoFileReq) rfl ⟨[], []⟩

/-! ### The limit on the number of fields does not count files -/

/-- `n` files of one byte in one field. -/
def manyFiles (n : Nat) : List FormItem := List.replicate n (.file b!"f" b!"a" b!"text/plain" b!"x")

theorem manyFiles_ok (n : Nat) : ∀ it ∈ manyFiles n, it.Ok b!"B" := by
  intro it hit
  rw [(List.mem_replicate.1 hit).2]
  exact ⟨by decide +kernel, by decide +kernel, by decide +kernel, by decide +kernel,
    by decide +kernel, separable_of_no_semicolon (by decide +kernel) (by decide +kernel), by decide +kernel,
    by decide +kernel, by decide +kernel, by decide +kernel, by decide +kernel, by decide +kernel⟩

theorem manyFiles_fields (n : Nat) : fieldsOf (manyFiles n) = [] := by
  unfold fieldsOf manyFiles
  rw [List.filterMap_eq_nil_iff]
  intro it hit
  rw [(List.mem_replicate.1 hit).2]

theorem manyFiles_files (n : Nat) : Spec.filesOf (manyFiles n) = List.replicate n (b!"f", b!"a", b!"x") := by
  unfold Spec.filesOf manyFiles
  induction n with
  | zero => rfl
  | succ n ih => rw [List.replicate_succ, List.replicate_succ, ← ih]; rfl

theorem manyFiles_around : Around b!"B" none b!"" :=
  ⟨by simp, by simp, by simp, by decide +kernel, by decide +kernel⟩

theorem manyFiles_count {n : Nat} {R : Bytes × Bytes × Bytes → Uploaded → Prop} {fs : List Uploaded} {files : MVD Uploaded}
    (h1 : List.Forall₂ R (Spec.filesOf (manyFiles n)) fs)
    (h2 : ∀ n', Dict.get? files n' = if ((Spec.filesOf (manyFiles n)).zip fs).filter (fun p => p.1.1 = n') = [] then none
      else some ((((Spec.filesOf (manyFiles n)).zip fs).filter (fun p => p.1.1 = n')).map Prod.snd)) :
    ((Dict.get? files b!"f").getD []).length = n := by
  have hl := h1.length_eq
  rw [manyFiles_files] at hl h2
  simp only [List.length_replicate] at hl
  have hf : ((List.replicate n (b!"f", b!"a", b!"x")).zip fs).filter (fun p => p.1.1 = b!"f") =
      (List.replicate n (b!"f", b!"a", b!"x")).zip fs := by
    rw [List.filter_eq_self]
    intro p hp
    have := List.of_mem_zip (a := p.1) (b := p.2) hp
    rw [(List.mem_replicate.1 this.1).2]
    rfl
  rw [h2, hf]
  split
  · rename_i h
    have := congrArg List.length h
    simp only [List.length_zip, List.length_replicate, List.length_nil] at this
    simp only [Option.getD_none, List.length_nil]
    omega
  · simp only [Option.getD_some, List.length_map, List.length_zip, List.length_replicate]
    omega

/-- **C134** is false of the code: with default settings and handlers, a request with any number of files is accepted. -/
theorem C134_request_refuted {mods : Modules (Except Exc Builtin)} (hm : Installed mods) (up : List UStr) (fuel64 : Nat) (os : Os)
    (hos : ∀ e, os.tempFile e = .ok ()) (n : Nat) (cs : List Bytes)
    (h : cs.flatten = (formMessage (renderForm b!"B" (manyFiles n) none b!"")).text) (w : BWorld) :
    ∃ (r0 r' : Req Source BWorld Uploaded) (w' : BWorld) (S' : Settings) (files : MVD Uploaded),
      Req.new pyCodecs {} ⟨cs⟩ = .ok r0 ∧
      parseRequest (namedEnv Source pyCodecs up os mods defaultHandlers fuel64) {} r0 w = (.ok (), S', r', w') ∧
      r'.files = some files ∧ ((Dict.get? files b!"f").getD []).length = n := by
  obtain ⟨r0, r', w', post, files, h1, h2, -, -, -, h6, -, fs, h8, -, -, h9⟩ :=
    C78_multipart (E := namedEnv Source pyCodecs up os mods defaultHandlers fuel64) (formMessage_arrives py_latin1 _ cs h)
      (by decide +kernel) boundaryB rfl three_hundred (by decide) (by decide) manyFiles_around (manyFiles n) (manyFiles_ok n) rfl
      ⟨by rw [manyFiles_fields]; intro n hn; cases hn; decide, by
        unfold formSize
        rw [manyFiles_fields]; intro n hn; cases hn; decide⟩
      ⟨_, rfl, by decide⟩ os hos w [.conv {}] w.heap (by simp only [namedEnv, load_default hm])
      ⟨⟨.conv {}, by simp, trivial⟩, fun h hh _ => by show (0 : Int) ≤ 30 * 2 ^ 20; decide⟩
  exact ⟨r0, r', w', _, files, h1, h2, h6, manyFiles_count h8 h9⟩

/-- The same for every limit: the parser accepts any number of files even if no field is allowed. -/
theorem C134_refuted (C : Codecs) (S : Settings) (hS : ∀ k, S.maxFields = some k → 0 ≤ k) (hS2 : ∀ k, S.dataMaxMemory = some k → 0 ≤ k)
    (hq : emptyQueryDict C S = .ok ()) (hcs : ∀ n, (∀ c ∈ n, c < 128) → C.strEncode S.defaultCharset n = .ok n)
    (os : Os) (hos : ∀ e, os.tempFile e = .ok ()) (fuel64 : Nat) (k len : Nat) (hc : 1 ≤ k) (hl : len ≠ 0)
    (hs : List Builtin) (heap : Heap) (ht : Takes S len hs) (n : Nat) (cs : List Bytes)
    (h : cs.flatten = renderForm b!"B" (manyFiles n) none b!"") :
    ∃ post files s' w', (⟨b!"B", k, len⟩ : MultiPart).parse C S (builtinOps Source os hs.length) fuel64 (LazyStream.mk' ⟨cs⟩) ⟨hs, heap⟩ =
      (.ok (post, files), s', w') ∧ ((Dict.get? files b!"f").getD []).length = n := by
  obtain ⟨post, files, s', w', h1, -, fs, h2, -, -, h3⟩ := C19_files (L := Source.lawful) C S os hos fuel64 ⟨b!"B", k, len⟩ hc hl
    (by show 13 ∉ b!"B"; decide) manyFiles_around hq hcs (manyFiles n) (manyFiles_ok n)
    ⟨by rw [manyFiles_fields]; exact hS, by unfold formSize; rw [manyFiles_fields]; exact hS2⟩ hs heap ht
    (LazyStream.mk' ⟨cs⟩) (SOK.fresh cs) (by rw [sc_fresh]; exact h)
  exact ⟨post, files, s', w', h1, manyFiles_count h2 h3⟩

/-- A thousand files where no field is allowed. -/
example (cs : List Bytes) (h : cs.flatten = renderForm b!"B" (manyFiles 1000) none b!"") :=
  C134_refuted latinCodecs { maxFields := some 0 } (by intro k hk; cases hk; decide) (by intro k hk; cases hk; decide) rfl
    (fun n hn => by
      have : Py.isAscii n = true := by simpa [Py.isAscii] using hn
      simp [latinCodecs, this]) goodOs (fun _ => rfl) 0 7 300 (by decide) (by decide) [.conv {}] []
    ⟨⟨.conv {}, by simp, trivial⟩, by intro h hh _; decide⟩ 1000 cs h

end Verif
