import Verif.Props.Message
import Verif.Props.RequestMore
import Verif.Props.MVDict
/-!
# Settings that cannot be used (C123, C45), and names that are not there (C66)
-/

namespace Verif
open Spec

namespace Spec

/-- The charsets of the model of Python's codecs, under their names; case and the kind of dash do not matter. -/
def KnownCharset (enc : Bytes) : Prop :=
  (Py.lower enc).map (fun c => if c = 95 then 45 else c) ∈ [b!"utf-8", b!"utf8", b!"ascii", b!"us-ascii", b!"iso-8859-1",
    b!"iso8859-1", b!"latin-1", b!"latin1"]

/-- Settings with which nothing can be set up, and the exception that says so. -/
def Refuses (S : Settings) (e : Exc) : Prop :=
  (¬ KnownCharset S.defaultCharset ∧ e = .lookupError) ∨
  (KnownCharset S.defaultCharset ∧ (∃ k, S.maxFields = some k ∧ k < 0) ∧ e = .tooManyFieldsSent)

/-- Settings that are in order. -/
def Usable (S : Settings) : Prop := KnownCharset S.defaultCharset ∧ ∀ k, S.maxFields = some k → 0 ≤ k

instance (enc : Bytes) : Decidable (KnownCharset enc) := by unfold KnownCharset; infer_instance

end Spec

theorem lookupEnc_none {enc : Bytes} : lookupEnc enc = none ↔ ¬ KnownCharset enc := by
  unfold lookupEnc KnownCharset
  simp only [List.mem_cons, List.not_mem_nil, or_false]
  generalize (Py.lower enc).map (fun c => if c = 95 then 45 else c) = n
  split
  · rename_i h
    simp only [reduceCtorEq, false_iff, Classical.not_not]
    rcases h with h | h <;> simp [h]
  · split
    · rename_i h
      simp only [reduceCtorEq, false_iff, Classical.not_not]
      rcases h with h | h <;> simp [h]
    · split
      · rename_i h
        simp only [reduceCtorEq, false_iff, Classical.not_not]
        rcases h with h | h | h | h <;> simp [h]
      · rename_i h1 h2 h3
        simp only [not_or] at h1 h2 h3
        simp only [true_iff, not_or]
        exact ⟨h1.1, h1.2, h2.1, h2.2, h3.1, h3.2.1, h3.2.2.1, h3.2.2.2⟩

/-- Nothing can be decoded or encoded with a charset that is not known. -/
theorem pyCodecs_unknown {enc : Bytes} (h : ¬ KnownCharset enc) :
    (∀ b, pyCodecs.decode enc b = .error .lookupError) ∧ (∀ b, pyCodecs.decodeReplace enc b = .error .lookupError) ∧
    (∀ b, pyCodecs.strEncode enc b = .error .lookupError) ∧ (∀ u, pyCodecs.encode enc u = .error .lookupError) := by
  have := lookupEnc_none.2 h
  simp [pyCodecs, this]

theorem pyCodecs_empty {enc : Bytes} (h : KnownCharset enc) : pyCodecs.decode enc [] = .ok [] := by
  cases hl : lookupEnc enc with
  | none => exact absurd h (lookupEnc_none.1 hl)
  | some e =>
    simp only [pyCodecs, hl]
    cases e <;> rfl

theorem queryDict_unknown {S : Settings} (h : ¬ KnownCharset S.defaultCharset) (mt : Bool) :
    queryDict pyCodecs S none mt = .error .lookupError ∧
    ∀ s, queryDict pyCodecs S (some (.b s)) mt = .error .lookupError := by
  have := (pyCodecs_unknown h).1
  simp [queryDict, queryText, this]

theorem queryDict_known {S : Settings} (h : KnownCharset S.defaultCharset) (mt : Bool) :
    queryDict pyCodecs S none mt = if S.maxFields.any (· < 0) then .error .tooManyFieldsSent else .ok ⟨[], mt⟩ := by
  simp only [queryDict, queryText, pyCodecs_empty h]
  unfold limitedParseQsl
  cases S.maxFields with
  | none => rfl
  | some l =>
    have e1 : ∀ n, splitFieldsN [] n = [[]] := by
      intro n
      cases n <;> rfl
    simp only [Option.any_some, decide_eq_true_eq, e1, List.length_singleton]
    by_cases h0 : l = 0
    · rw [if_pos h0, if_neg (by omega)]
      rfl
    · rw [if_neg h0]
      by_cases h1 : l < 0
      · rw [if_pos h1, if_pos (by show (((1 : Nat) : Int) > l); omega)]
      · rw [if_neg h1, if_neg (by show ¬ (((1 : Nat) : Int) > l); omega)]
        rfl

theorem queryDict_refused {S : Settings} {e : Exc} (h : Refuses S e) (mt : Bool) :
    queryDict pyCodecs S none mt = .error e := by
  rcases h with ⟨h, rfl⟩ | ⟨h, ⟨k, hk, h0⟩, rfl⟩
  · exact (queryDict_unknown h mt).1
  · rw [queryDict_known h mt, if_pos (by simp [hk, h0])]

theorem queryDict_usable {S : Settings} (h : Usable S) (mt : Bool) : queryDict pyCodecs S none mt = .ok ⟨[], mt⟩ := by
  have e : S.maxFields.any (· < 0) = false := by
    cases hm : S.maxFields with
    | none => rfl
    | some k => have := h.2 k hm; simp; omega
  rw [queryDict_known h.1 mt, e]
  rfl

/-- Settings either are in order or are refused with one exception. -/
theorem usable_or (S : Settings) : (Usable S ∧ ∀ e, ¬ Refuses S e) ∨ (¬ Usable S ∧ ∃ e, ∀ e', Refuses S e' ↔ e' = e) := by
  unfold Usable Refuses
  by_cases h : KnownCharset S.defaultCharset
  · by_cases h0 : ∃ k, S.maxFields = some k ∧ k < 0
    · refine .inr ⟨?_, .tooManyFieldsSent, by simp [h, h0]⟩
      obtain ⟨k, hk, h1⟩ := h0
      exact fun hh => absurd (hh.2 k hk) (by omega)
    · refine .inl ⟨⟨h, fun k hk => ?_⟩, by simp [h, h0]⟩
      by_contra hc
      exact h0 ⟨k, hk, by omega⟩
  · exact .inr ⟨fun hh => h hh.1, .lookupError, by simp [h]⟩

section
variable {ρ σ F : Type} [Producer ρ]

omit [Producer ρ] in
/-- **C123**: when a request object can be made, with the codecs of Python.  Every stream gives one if the default charset
is known and the limit on the number of fields is not negative; otherwise none does: the exception is `LookupError` for
the charset, and for a known charset `TooManyFieldsSent`. -/
theorem C123_new (S : Settings) (p : ρ) :
    (∀ e, Refuses S e → (Req.new pyCodecs S p : Except Exc (Req ρ σ F)) = .error e) ∧
    (Usable S → (Req.new pyCodecs S p : Except Exc (Req ρ σ F)) = .ok (freshReq p)) := by
  refine ⟨fun e h => ?_, fun h => ?_⟩
  · unfold Req.new
    rw [queryDict_refused h]
  · unfold Req.new Req.reInit
    simp only [queryDict_usable h]
    rfl

omit [Producer ρ] in
/-- **C123**: assigning a stream fails in the same way.  The request then has no header data at all, and asking whether it
is plain text raises `AttributeError`; `POST`, `FILES` and the body are as before, and so are the flags that say what has been
parsed.  If it does not fail, the header data are those of a new request, and both flags say that nothing has been parsed. -/
theorem C123_stream (S : Settings) (p : ρ) (r : Req ρ σ F) :
    ∃ r' x, Req.setStream pyCodecs S p r = (x, r') ∧ r'.stream = LazyStream.mk' p ∧
      r'.method = none ∧ r'.scheme = none ∧ r'.host = none ∧ r'.port = none ∧ r'.path = none ∧ r'.proto = none ∧
      r'.post = r.post ∧ r'.files = r.files ∧ r'.body_ = r.body_ ∧
      (∀ e, Refuses S e → x = .error e ∧ r'.get = none ∧ r'.info = none ∧ r'.isPlainText = .error .attributeError ∧
        r'.headerParsed = r.headerParsed ∧ r'.bodyParsed = r.bodyParsed) ∧
      (Usable S → x = .ok () ∧ r'.get = some ⟨[], true⟩ ∧ r'.info = some {} ∧ r'.isPlainText = .ok false ∧
        r'.headerParsed = false ∧ r'.bodyParsed = false) := by
  rcases usable_or S with ⟨h, hn⟩ | ⟨hn, e, h⟩
  · unfold Req.setStream Req.reInit
    rw [queryDict_usable h]
    exact ⟨_, _, rfl, rfl, rfl, rfl, rfl, rfl, rfl, rfl, rfl, rfl, rfl, fun e he => absurd he (hn e),
      fun _ => ⟨rfl, rfl, rfl, rfl, rfl, rfl⟩⟩
  · unfold Req.setStream Req.reInit
    rw [queryDict_refused ((h e).2 rfl)]
    exact ⟨_, _, rfl, rfl, rfl, rfl, rfl, rfl, rfl, rfl, rfl, rfl, rfl, fun e' he => by
      rw [(h e').1 he]; exact ⟨rfl, rfl, rfl, rfl, rfl, rfl⟩, fun hu => absurd hu hn⟩

omit [Producer ρ] in
/-- **C123**: assigning a stream for the body fails in the same way.  The request then has neither `POST` nor `FILES`; the
header data and the flags are as before. -/
theorem C123_body_stream (S : Settings) (p : ρ) (r : Req ρ σ F) :
    ∃ r' x, Req.setBodyStream pyCodecs S p r = (x, r') ∧ r'.stream = LazyStream.mk' p ∧ r'.body_ = none ∧
      r'.get = r.get ∧ r'.info = r.info ∧ r'.method = r.method ∧ r'.path = r.path ∧ r'.contentType = r.contentType ∧
      r'.headerParsed = r.headerParsed ∧
      (∀ e, Refuses S e → x = .error e ∧ r'.post = none ∧ r'.files = none ∧ r'.bodyParsed = r.bodyParsed) ∧
      (Usable S → x = .ok () ∧ r'.post = some (.query ⟨[], true⟩) ∧ r'.files = some [] ∧ r'.bodyParsed = false) := by
  rcases usable_or S with ⟨h, hn⟩ | ⟨hn, e, h⟩
  · unfold Req.setBodyStream
    rw [queryDict_usable h]
    exact ⟨_, _, rfl, rfl, rfl, rfl, rfl, rfl, rfl, rfl, rfl, fun e he => absurd he (hn e),
      fun _ => ⟨rfl, rfl, rfl, rfl⟩⟩
  · unfold Req.setBodyStream
    rw [queryDict_refused ((h e).2 rfl)]
    exact ⟨_, _, rfl, rfl, rfl, rfl, rfl, rfl, rfl, rfl, rfl, fun e' he => by
      rw [(h e').1 he]; exact ⟨rfl, rfl, rfl, rfl⟩, fun hu => absurd hu hn⟩

/-- **C45 is false of the code, for every request that names a charset Python does not know**: whatever else the
well-formed request says, parsing it raises `LookupError` and puts that name into the shared settings; from then on no
request object can be made with these settings, and none that exists can be given another stream. -/
theorem C45_poisoned (L : Lawful ρ) (E : Env ρ σ F) (hE : E.C = pyCodecs) (S : Settings) (hS : 1 ≤ S.maxHeaderSize)
    (r : Req ρ σ F) (hr : r.headerParsed = false) (hinfo : r.info = some {}) (p : ρ)
    (hp : r.stream = LazyStream.mk' p) (hI : L.Inv p) (m : Message) (hm : m.Ok) (hc : L.content p = m.text)
    (host d port dom : Bytes) (hh : m.HostText host) (hf : HostForm (Py.lower host) d port)
    (hdom : DotRemoved d dom) (type : Option Bytes) (ps : List (Bytes × Bytes)) (hct : m.Content type ps)
    {cs : Bytes} (hcs : param ps b!"charset" = some cs) (hk : ¬ KnownCharset cs) (w : σ) :
    (parseRequest E S r w).1 = .error .lookupError ∧ (parseRequest E S r w).2.1 = { S with defaultCharset := cs } ∧
    (∀ p' : ρ, (Req.new pyCodecs (parseRequest E S r w).2.1 p' : Except Exc (Req ρ σ F)) = .error .lookupError) ∧
    ∀ (p' : ρ) (r' : Req ρ σ F), (Req.setStream pyCodecs (parseRequest E S r w).2.1 p' r').1 = .error .lookupError := by
  obtain ⟨s', hd', g, po, b, f1, -⟩ := head_applied L E S hS r hr p hp hI m hm hc host d port dom hh hf hdom type ps hct
  have hS' : charsetAfter S ps = { S with defaultCharset := cs } := by
    unfold charsetAfter
    rw [hcs]
  have hk' : ¬ KnownCharset (charsetAfter S ps).defaultCharset := by rw [hS']; exact hk
  have key : ∃ q, parseRequestHeader E S r = (.error .lookupError, charsetAfter S ps, q) := by
    rw [f1]
    unfold applyQuery
    simp only [hinfo, hE]
    cases m.reqLine.query <;>
      simp only [(queryDict_unknown hk' _).1, (queryDict_unknown hk' _).2] <;> exact ⟨_, rfl⟩
  obtain ⟨q, hq⟩ := key
  have hpr : (parseRequest E S r w).1 = .error .lookupError ∧ (parseRequest E S r w).2.1 = charsetAfter S ps := by
    unfold parseRequest
    rw [hq]
    exact ⟨rfl, rfl⟩
  refine ⟨hpr.1, by rw [hpr.2, hS'], fun p' => ?_, fun p' r' => ?_⟩
  · rw [hpr.2]
    exact (C123_new _ p').1 _ (.inl ⟨hk', rfl⟩)
  · rw [hpr.2]
    obtain ⟨_, _, e, _, _, _, _, _, _, _, _, _, _, hx, _⟩ := C123_stream (charsetAfter S ps) p' r'
    rw [e]
    exact (hx _ (.inl ⟨hk', rfl⟩)).1

/-- The sample upload of `Verif.Props.Message` with the charset `klingon`. -/
def klingonUpload : Message :=
  { sampleUpload with headers := [(b!"Host", b!"[::1]"),
      (b!"Content-Type", b!"text/plain; charset=klingon"), (b!"Content-Length", b!"0300")] }

theorem klingonUpload_ok : klingonUpload.Ok :=
  { sampleUpload_ok with
    names := by decide +kernel
    values := by
      have : ∀ p ∈ klingonUpload.headers, (∀ c ∈ p.2, Visible c ∨ c = 32 ∨ c = 9) ∧
        (∀ c, p.2.head? = some c → Visible c) ∧ (∀ c, p.2.getLast? = some c → Visible c) := by decide +kernel
      intro p hp
      obtain ⟨h1, h2, h3⟩ := this p hp
      exact ⟨h1, fun c hc => hc.elim (h2 c) (h3 c)⟩
    some := by decide }

example (cs : List Bytes) (h : cs.flatten = klingonUpload.text) (E : Env Source σ F) (hE : E.C = pyCodecs) (w : σ) :=
  C45_poisoned Source.lawful E hE {} (by decide) (freshReq ⟨cs⟩) rfl rfl ⟨cs⟩ rfl trivial klingonUpload klingonUpload_ok h
    b!"[::1]" b!"[::1]" [] b!"[::1]" (.inr ⟨by decide, by decide +kernel⟩)
    ⟨.inr ⟨[], b!":1", by decide, by simp, by decide, by unfold hexByte; decide +kernel⟩, by simp,
      .inl ⟨rfl, by decide +kernel⟩⟩
    (.inr ⟨rfl, fun x hx => by
      have := congrArg List.getLast? hx
      simp at this⟩)
    (some b!"text/plain") [(b!"charset", b!"klingon")]
    ⟨by decide +kernel, b!"text/plain; charset=klingon", by decide +kernel,
      .snoc (s := b!"text/plain") (n := b!"charset") (v := b!"klingon") (t := b!"charset=klingon")
        (ps := []) .nil (by decide +kernel) (by decide +kernel) (.inl ⟨by decide +kernel, rfl⟩)⟩
    (cs := b!"klingon") (by decide +kernel) (by decide +kernel) w

end

example : ¬ KnownCharset b!"utf-16" ∧ KnownCharset b!"Latin_1" := by decide +kernel

example : (Req.new pyCodecs { maxFields := some (-1) } ⟨[]⟩ : Except Exc (Req Source Unit Unit)) =
    .error .tooManyFieldsSent :=
  (C123_new _ _).1 _ (.inr ⟨by decide +kernel, ⟨-1, rfl, by decide⟩, rfl⟩)

example : (Req.setStream pyCodecs { defaultCharset := b!"utf-16" } ⟨[b!"GET / HTTP/1.1\r\n"]⟩
    (freshReq ⟨[]⟩ : Req Source Unit Unit)).1.toOption = none := by
  obtain ⟨r', x, e, _, _, _, _, _, _, _, _, _, _, h, _⟩ := C123_stream { defaultCharset := b!"utf-16" }
    ⟨[b!"GET / HTTP/1.1\r\n"]⟩ (freshReq ⟨[]⟩ : Req Source Unit Unit)
  rw [e, (h .lookupError (.inl ⟨by decide +kernel, rfl⟩)).1]
  rfl

example : Usable { maxFields := some 0 } := ⟨by decide +kernel, by intro k hk; cases hk; decide⟩

/-- Calling any methods, in any order, leaves the elements of an `ImmutableList`; a method that is neither one of a list
that changes it nor one of a tuple does not exist. -/
theorem C66_other {α : Type} (tm : List String) (l : ImmList α) (ns : List String) :
    (callMethods tm ns l).2 = l ∧ ∀ n, n ∉ Spec.listMutators → n ∉ tm →
      l.callMethod tm n = (.error .attributeError, l) := by
  constructor
  · induction ns with
    | nil => rfl
    | cons n ns ih =>
      have h : (l.callMethod tm n).2 = l := by
        unfold ImmList.callMethod
        split
        · rfl
        · split <;> rfl
      unfold callMethods
      generalize l.callMethod tm n = y at h
      obtain ⟨a, b⟩ := y
      subst h
      exact ih
  · intro n h1 h2
    have h3 : n ∉ ImmList.complaining := by
      have : ∀ x ∈ ImmList.complaining, x ∈ Spec.listMutators := by decide
      exact fun h => h1 (this n h)
    unfold ImmList.callMethod
    rw [if_neg h3, if_neg h2]

example : (ImmList.new [1, 2]).callMethod ["index", "count"] "clear" = (.error .attributeError, ImmList.new [1, 2]) :=
  (C66_other ["index", "count"] (ImmList.new [1, 2]) []).2 "clear" (by decide) (by decide)

end Verif
