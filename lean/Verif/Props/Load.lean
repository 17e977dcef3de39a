import Verif.Model.Load
import Verif.Props.Message
/-!
# Loading handlers by name, and requests in the default configuration (C86, C87)
-/

namespace Verif
open Spec

/-! ### C86: `import_string` -/

/-- The dotted path of an attribute of a module. -/
def Spec.Dotted (path mod attr : Bytes) : Prop := 46 ∉ attr ∧ path = mod ++ b!"." ++ attr

theorem importString_dotted {α : Type} {mods : Modules α} {path mod attr : Bytes} (h : Dotted path mod attr) :
    importString mods path = (match mods mod with
      | .error e => .error e
      | .ok attrs => match attrs attr with
        | none => .error .typeError
        | some v => .ok v) := by
  obtain ⟨h1, rfl⟩ := h
  unfold importString
  have e : mod ++ b!"." ++ attr = mod ++ 46 :: attr := by simp
  rw [e, Py.rfindChar_app h1]
  simp only [List.take_left]
  have e2 : (mod ++ 46 :: attr).drop (mod.length + 1) = attr := by
    rw [show mod ++ 46 :: attr = (mod ++ [46]) ++ attr by simp, List.drop_left' (by simp)]
  rw [e2]
  cases mods mod with
  | error e => rfl
  | ok attrs => rfl

/-- **C86, the part that holds**: the attribute is returned if the module can be imported and has it, and an
exception of the import is passed on.  Missing: a path without a dot and an attribute that does not exist, for
which `ImportError` should be raised (`C86_refuted`). -/
theorem C86_partial {α : Type} (mods : Modules α) {path mod attr : Bytes} (h : Dotted path mod attr) :
    (∀ attrs v, mods mod = .ok attrs → attrs attr = some v → importString mods path = .ok v) ∧
    (∀ e, mods mod = .error e → importString mods path = .error e) := by
  rw [importString_dotted h]
  refine ⟨fun attrs v h1 h2 => ?_, fun e h1 => ?_⟩
  · simp only [h1, h2]
  · simp only [h1]

/-- **C86 is false of the code**: a path without a dot, and an attribute that does not exist, are reported as
`TypeError` instead of `ImportError`. -/
theorem C86_refuted {α : Type} (mods : Modules α) :
    (∀ path : Bytes, 46 ∉ path → importString mods path = .error .typeError) ∧
    (∀ path mod attr : Bytes, Dotted path mod attr → ∀ attrs, mods mod = .ok attrs → attrs attr = none →
      importString mods path = .error .typeError) := by
  refine ⟨fun path h => ?_, fun path mod attr h attrs h1 h2 => ?_⟩
  · unfold importString
    rw [Py.rfindChar_eq_none.2 h]
  · rw [importString_dotted h]
    simp only [h1, h2]

/-- Whatever is returned is the named attribute: no other way to succeed. -/
theorem C86_sound {α : Type} (mods : Modules α) (path : Bytes) (v : α) (h : importString mods path = .ok v) :
    ∃ mod attr attrs, Dotted path mod attr ∧ mods mod = .ok attrs ∧ attrs attr = some v := by
  have h' := h
  unfold importString at h'
  split at h'
  · simp at h'
  · rename_i i hi
    obtain ⟨h1, h2⟩ := rfindChar_drop hi
    have hlt : i < path.length := (List.getElem?_eq_some_iff.1 h2).1
    have hd : Dotted path (path.take i) (path.drop (i + 1)) := by
      refine ⟨h1, ?_⟩
      have : path[i] = 46 := (List.getElem?_eq_some_iff.1 h2).2
      conv_lhs => rw [← List.take_append_drop i path, List.drop_eq_getElem_cons hlt, this]
      simp
    rw [importString_dotted hd] at h
    split at h
    · simp at h
    · rename_i attrs ha
      split at h
      · simp at h
      · rename_i v' hv
        simp only [Except.ok.injEq] at h
        exact ⟨_, _, attrs, hd, ha, by rw [hv, h]⟩

/-- The handlers named in the settings are loaded in order, each from the module and attribute its name says. -/
theorem C86_handlers {α : Type} (mods : Modules (Except Exc α)) (names : List Bytes) (hs : List α) :
    loadHandlers mods names = .ok hs ↔
      List.Forall₂ (fun p h => ∃ mod attr attrs, Dotted p mod attr ∧ mods mod = .ok attrs ∧ attrs attr = some (.ok h))
        names hs := by
  have key : ∀ p h, loadHandler mods p = .ok h ↔
      ∃ mod attr attrs, Dotted p mod attr ∧ mods mod = .ok attrs ∧ attrs attr = some (.ok h) := by
    intro p h
    unfold loadHandler
    constructor
    · intro hh
      split at hh
      · simp at hh
      · rename_i c hc
        obtain ⟨mod, attr, attrs, a1, a2, a3⟩ := C86_sound mods p c hc
        exact ⟨mod, attr, attrs, a1, a2, by rw [a3, hh]⟩
    · rintro ⟨mod, attr, attrs, a1, a2, a3⟩
      rw [(C86_partial mods a1).1 attrs _ a2 a3]
  induction names generalizing hs with
  | nil =>
    simp only [loadHandlers, Except.ok.injEq, List.forall₂_nil_left_iff]
    exact eq_comm
  | cons p ps ih =>
    unfold loadHandlers
    constructor
    · intro h
      split at h
      · simp at h
      · rename_i x hx
        split at h
        · simp at h
        · rename_i xs hxs
          simp only [Except.ok.injEq] at h
          subst h
          exact .cons ((key p x).1 hx) ((ih xs).1 hxs)
    · rintro (_ | ⟨h1, h2⟩)
      rw [(key p _).2 h1, (ih _).2 h2]

/-- A set of modules with the library in it. -/
def sampleModules : Modules (Except Exc Builtin) := fun m =>
  if m = b!"request_parser.files.uploadhandler" then .ok uploadhandlerModule else .error .importError

example : loadHandlers sampleModules [b!"request_parser.files.uploadhandler.MemoryFileUploadHandler",
      b!"request_parser.files.uploadhandler.TemporaryFileUploadHandler"] = .ok [.memory {}, .temp {}] :=
  (C86_handlers _ _ _).2 (.cons ⟨b!"request_parser.files.uploadhandler", b!"MemoryFileUploadHandler",
    uploadhandlerModule, ⟨by decide, by decide +kernel⟩, rfl, rfl⟩ (.cons ⟨b!"request_parser.files.uploadhandler",
      b!"TemporaryFileUploadHandler", uploadhandlerModule, ⟨by decide, by decide +kernel⟩, rfl, rfl⟩ .nil))

/-- When loading fails: the handlers before the first name that fails have been made, and its exception is raised. -/
theorem C86_failure {α : Type} (mods : Modules (Except Exc α)) (names : List Bytes) (e : Exc) :
    loadHandlers mods names = .error e ↔
      ∃ before p after hs, names = before ++ p :: after ∧ loadHandlers mods before = .ok hs ∧
        loadHandler mods p = .error e := by
  induction names with
  | nil => simp [loadHandlers]
  | cons q qs ih =>
    constructor
    · intro h
      unfold loadHandlers at h
      cases hq : loadHandler mods q with
      | error e' =>
        rw [hq] at h
        cases h
        exact ⟨[], q, qs, [], rfl, rfl, hq⟩
      | ok x =>
        rw [hq] at h
        cases hqs : loadHandlers mods qs with
        | error e' =>
          simp only [hqs] at h
          cases h
          obtain ⟨before, p, after, hs, rfl, h1, h2⟩ := ih.1 hqs
          exact ⟨q :: before, p, after, x :: hs, rfl, by simp only [loadHandlers, hq, h1], h2⟩
        | ok xs => simp only [hqs] at h; cases h
    · rintro ⟨before, p, after, hs, he, h1, h2⟩
      cases before with
      | nil =>
        simp only [List.nil_append, List.cons.injEq] at he
        obtain ⟨rfl, rfl⟩ := he
        simp only [loadHandlers, h2]
      | cons b bs =>
        simp only [List.cons_append, List.cons.injEq] at he
        obtain ⟨rfl, rfl⟩ := he
        unfold loadHandlers at h1 ⊢
        cases hq : loadHandler mods q with
        | error e' => rw [hq] at h1; cases h1
        | ok x =>
          rw [hq] at h1
          cases hb : loadHandlers mods bs with
          | error e' => simp only [hb] at h1; cases h1
          | ok xs =>
            have := ih.2 ⟨bs, p, after, xs, rfl, hb, h2⟩
            simp only [this]

/-- The names of the handlers of the library stand for these handlers, in a fresh state. -/
theorem C86_builtin (mods : Modules (Except Exc Builtin))
    (h : mods b!"request_parser.files.uploadhandler" = .ok uploadhandlerModule) :
    loadHandler mods b!"request_parser.files.uploadhandler.MemoryFileUploadHandler" = .ok (.memory {}) ∧
    loadHandler mods b!"request_parser.files.uploadhandler.TemporaryFileUploadHandler" = .ok (.temp {}) ∧
    loadHandler mods b!"request_parser.files.uploadhandler.ConvenientFileUploadHandler" = .ok (.conv {}) := by
  have key : ∀ attr path v, Dotted path b!"request_parser.files.uploadhandler" attr →
      uploadhandlerModule attr = some (.ok v) → loadHandler mods path = .ok v := by
    intro attr path v hd ha
    unfold loadHandler
    rw [(C86_partial mods hd).1 _ _ h ha]
  exact ⟨key b!"MemoryFileUploadHandler" _ _ ⟨by decide, by decide +kernel⟩ rfl,
    key b!"TemporaryFileUploadHandler" _ _ ⟨by decide, by decide +kernel⟩ rfl,
    key b!"ConvenientFileUploadHandler" _ _ ⟨by decide, by decide +kernel⟩ rfl⟩

/-- A request with a handler that cannot be loaded: after the header has been read the exception is raised, whatever
the body; nothing of the body has been read. -/
theorem C86_request {ρ : Type} [Producer ρ] {L : Lawful ρ} {C : Codecs} {S : Settings} {p : ρ} {m : Message}
    {host port : Bytes} {type : Option Bytes} {ps : List (Bytes × Bytes)} {qs : List (UStr × UStr)}
    (h : Arrives L C S p m host port type ps qs) (up : List UStr) (fuel64 : Nat) (os : Os)
    (mods : Modules (Except Exc Builtin)) (names : List Bytes) (e : Exc) (he : loadHandlers mods names = .error e)
    (w : BWorld) :
    ∃ (r0 r' : Req ρ BWorld Uploaded), Req.new C S p = .ok r0 ∧
      parseRequest (namedEnv ρ C up os mods names fuel64) S r0 w = (.error e, charsetAfter S ps, r', w) ∧
      HeadRead m host port type qs r' ∧ r'.bodyParsed = false ∧ L.sc r'.stream = m.body := by
  obtain ⟨r0, r, h1, h2, h3, -, h5, -, h7, -⟩ := header_new (σ := BWorld) (F := Uploaded)
    (E := namedEnv ρ C up os mods names fuel64) h
  refine ⟨r0, r, h1, ?_, h3, h7, h5⟩
  unfold parseRequest
  rw [h2]
  simp only
  unfold parseRequestBody
  rw [if_neg (by rw [h7]; simp)]
  simp only [namedEnv, he]

example : loadHandlers sampleModules [b!"request_parser.files.uploadhandler.MemoryFileUploadHandler", b!"a.b", b!"c"] =
    .error .importError :=
  (C86_failure _ _ _).2 ⟨[b!"request_parser.files.uploadhandler.MemoryFileUploadHandler"], b!"a.b", [b!"c"], [.memory {}],
    rfl, rfl, rfl⟩

/-! ### C87: the default configuration -/

/-- The library is installed: its module can be imported and has the class. -/
def Spec.Installed (mods : Modules (Except Exc Builtin)) : Prop :=
  ∃ attrs, mods b!"request_parser.files.uploadhandler" = .ok attrs ∧
    attrs b!"ConvenientFileUploadHandler" = uploadhandlerModule b!"ConvenientFileUploadHandler"

theorem load_default {mods : Modules (Except Exc Builtin)} (h : Installed mods) :
    loadHandlers mods defaultHandlers = .ok [.conv {}] := by
  obtain ⟨attrs, h1, h2⟩ := h
  exact (C86_handlers _ _ _).2 (.cons ⟨b!"request_parser.files.uploadhandler", b!"ConvenientFileUploadHandler",
    attrs, ⟨by decide, by decide +kernel⟩, h1, h2⟩ .nil)

/-- What the parser reads from `Settings.default()`. -/
theorem default_read {fs : Fs} {check : Bool} {so : SettingsObj} (h : settingsDefault fs check = .ok so) :
    ∃ d, so.read = some { fileUploadTempDir := d } := by
  unfold settingsDefault at h
  split at h
  · simp at h
  · rename_i d hd
    simp only [Except.ok.injEq] at h
    subst h
    obtain ⟨d', rfl⟩ : ∃ d', d = .str d' := by
      unfold checkUploadDir at hd
      simp only at hd
      split at hd
      · split at hd
        · simp at hd
        · simp at hd
        · simp only [Except.ok.injEq] at hd
          exact ⟨_, hd.symm⟩
      · simp only [Except.ok.injEq] at hd
        exact ⟨_, hd.symm⟩
    exact ⟨d', rfl⟩

section
variable {ρ : Type} [Producer ρ]

/-- **C87**: with `Settings.default()` and the library installed, every well-formed multipart request within the
limits (4096 fields, 5 MiB of fields) is parsed as it was written, whatever the chunking. -/
theorem C87_default {L : Lawful ρ} {mods : Modules (Except Exc Builtin)} (hm : Installed mods) {fs : Fs}
    {check : Bool} {so : SettingsObj} (hso : settingsDefault fs check = .ok so)
    (up : List UStr) (fuel64 : Nat) (os : Os) (hos : ∀ e, os.tempFile e = .ok ()) :
    ∃ S, so.read = some S ∧ ∀ {p : ρ} {m : Message}
      {host port : Bytes} {ps : List (Bytes × Bytes)} {qs : List (UStr × UStr)}
      (_ : Arrives L pyCodecs S p m host port (some b!"multipart/form-data") ps qs)
      {b cl : Bytes} {n : Nat} (_ : param ps b!"boundary" = some b) (_ : BoundaryOk (Py.toU b))
      (_ : m.header b!"Content-Length" = some cl) (_ : Numeral 10 DecDigit cl n) (_ : n ≠ 0)
      (_ : 13 ∉ b)
      {pre : Option Bytes} {epi : Bytes} (_ : Around b pre epi) (its : List FormItem)
      (_ : ∀ it ∈ its, it.Ok b) (_ : m.body = renderForm b its pre epi)
      (_ : (fieldsOf its).length ≤ 4096) (_ : formSize its ≤ 5 * 2 ^ 20)
      (w : BWorld),
    ∃ (r0 r' : Req ρ BWorld Uploaded) (w' : BWorld) (post : MVD PostItem) (files : MVD Uploaded),
      Req.new pyCodecs S p = .ok r0 ∧
      parseRequest (namedEnv ρ pyCodecs up os mods defaultHandlers fuel64) S r0 w =
        (.ok (), charsetAfter S ps, r', w') ∧
      HeadRead m host port (some b!"multipart/form-data") qs r' ∧ r'.bodyParsed = true ∧
      r'.post = some (.form post) ∧ r'.files = some files ∧
      (∀ n, Dict.get? post n = if (fieldsOf its).filter (fun p => p.1 = n) = [] then none
        else some (((fieldsOf its).filter (fun p => p.1 = n)).map (fun p => plainItem p.2))) ∧
      (∃ fs : List Uploaded, List.Forall₂ (fun p f => Holds w'.heap p.2.1 p.2.2 f) (filesOf its) fs ∧
        (fs.map Uploaded.ref).Nodup ∧ (Dict.keys files).Nodup ∧ ∀ n, Dict.get? files n =
          if ((filesOf its).zip fs).filter (fun p => p.1.1 = n) = [] then none
          else some ((((filesOf its).zip fs).filter (fun p => p.1.1 = n)).map Prod.snd)) := by
  obtain ⟨d, hd⟩ := default_read hso
  refine ⟨_, hd, fun {p m host port ps qs} h {b cl n} hb hbo hcl hn h0 h13 {pre epi} ha its hok hbody hf hz w => ?_⟩
  exact C78_multipart (E := namedEnv ρ pyCodecs up os mods defaultHandlers fuel64) h hb hbo hcl hn h0 h13 ha its hok hbody
    ⟨fun n hn => by cases hn; exact_mod_cast hf, fun n hn => by cases hn; exact_mod_cast hz⟩
    ⟨_, rfl, by decide⟩ os hos w [.conv {}] w.heap (by simp only [namedEnv, load_default hm])
    ⟨⟨.conv {}, by simp, trivial⟩, fun h hh _ => by show (0 : Int) ≤ 30 * 2 ^ 20; decide⟩

end

theorem sampleUpload_arrives_default (cs : List Bytes) (h : cs.flatten = sampleUpload.text) (d : Bytes) :
    Arrives Source.lawful pyCodecs { fileUploadTempDir := d } ⟨cs⟩ sampleUpload b!"[::1]" []
      (some b!"multipart/form-data") [(b!"boundary", b!"=_Bd'1")] [] :=
  have h := sampleUpload_arrives cs h
  have e : (charsetAfter { fileUploadTempDir := d } [(b!"boundary", b!"=_Bd'1")]).defaultCharset =
      (charsetAfter {} [(b!"boundary", b!"=_Bd'1")]).defaultCharset := by
    have : param [(b!"boundary", b!"=_Bd'1")] b!"charset" = none := by decide +kernel
    simp only [charsetAfter, this]
  ⟨h.size, h.inv, h.ok, h.text, h.host, h.content, h.codec0, by rw [e]; exact h.codec, by rw [e]; exact h.query,
    h.limit⟩

/-- The hypotheses can be met: the sample upload, on a machine where the directory of uploads need not be
checked. -/
example (cs : List Bytes) (h : cs.flatten = sampleUpload.text) (fs : Fs) (w : BWorld) :
    ∃ so, settingsDefault fs false = .ok so ∧ ∃ S, so.read = some S ∧
      ∃ r0 r' w', Req.new pyCodecs S (⟨cs⟩ : Source) = .ok r0 ∧
        parseRequest (namedEnv Source pyCodecs [] goodOs sampleModules defaultHandlers 0) S r0 w =
          (.ok (), charsetAfter S [(b!"boundary", b!"=_Bd'1")], r', w') := by
  refine ⟨_, rfl, ?_⟩
  obtain ⟨S, h1, h2⟩ := C87_default (L := Source.lawful) (mods := sampleModules) ⟨uploadhandlerModule, rfl, rfl⟩
    (fs := fs) (check := false) rfl [] 0 goodOs (fun _ => rfl)
  obtain ⟨d, hd⟩ := default_read (fs := fs) (check := false) rfl
  have hS : S = { fileUploadTempDir := d } := by
    rw [hd] at h1
    exact (Option.some.inj h1).symm
  subst hS
  obtain ⟨r0, r', w', _, _, a1, a2, _⟩ := h2 (sampleUpload_arrives_default cs h d) (b := b!"=_Bd'1") (cl := b!"0300")
    (n := 300) (by decide +kernel)
    ⟨[61, 95, 66, 100, 39], 49, .inl (by decide), by decide, by decide, by decide, by decide⟩
    (by decide +kernel)
    (.more (.more (.more (.one (v := 0) rfl) (v := 3) rfl) (v := 0) rfl) (v := 0) rfl) (by decide) (by decide)
    sampleAround sampleForm sampleForm_ok rfl (by decide) (by decide) w
  exact ⟨_, h1, r0, r', w', a1, a2⟩

end Verif
