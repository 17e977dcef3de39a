import Verif.Props.Message
import Verif.Props.Entry
import Verif.Proofs.Chars
/-!
# Exact forms of what the code does where C68, C69 and C70 are false
-/

namespace Verif
open Spec

/-! ### C68 -/

/-- `b` is what follows the last slash of `n` (all of `n` if it has none). -/
def Spec.LastComponent (n b : Bytes) : Prop := 47 ∉ b ∧ (n = b ∨ ∃ dir, n = dir ++ 47 :: b)

/-- Not a name of a file. -/
def Spec.Unusable (b : Bytes) : Prop := b = b!"" ∨ b = b!"." ∨ b = b!".."

theorem basename_last {n b : Bytes} (h : LastComponent n b) : Py.basename n = b := by
  obtain ⟨h1, rfl | ⟨dir, rfl⟩⟩ := h
  · unfold Py.basename
    rw [Py.rfindChar_eq_none.2 h1]
  · unfold Py.basename
    rw [Py.rfindChar_app h1]
    simp

theorem splitext_app (p : Bytes) : (Py.splitext p).1 ++ (Py.splitext p).2 = p := by
  unfold Py.splitext
  split
  · simp
  · rename_i dot _
    have key : ∀ (c : Prop) [Decidable c], (if c then (p.take dot, p.drop dot) else (p, [])).1 ++
        (if c then (p.take dot, p.drop dot) else (p, [])).2 = p := by
      intro c _
      split
      · exact List.take_append_drop _ _
      · simp
    exact key _

theorem setName_short {n b : Bytes} (h : LastComponent n b) (hl : b.length ≤ 255) : setName n = b := by
  unfold setName
  simp only [basename_last h]
  rw [if_neg (by omega)]

theorem setName_long {n b : Bytes} (h : LastComponent n b) (hl : 255 < b.length) : (setName n).length = 255 := by
  unfold setName
  simp only [basename_last h]
  rw [if_pos (by omega)]
  have := congrArg List.length (splitext_app b)
  simp only [List.length_append, List.length_take] at this ⊢
  omega

/-- **C68, the part that holds**: the name under which a file is stored is the last component of the
client's name if that has at most 255 bytes and has exactly 255 bytes otherwise; so it is unusable only
if the last component is.  Missing: a client that sends such a name (`C68_refuted`). -/
theorem C68_partial {n b : Bytes} (h : LastComponent n b) :
    (Unusable (setName n) ↔ Unusable b) ∧ (b.length ≤ 255 → setName n = b) ∧
    (255 < b.length → (setName n).length = 255) := by
  refine ⟨?_, setName_short h, setName_long h⟩
  by_cases hl : b.length ≤ 255
  · rw [setName_short h hl]
  · have h1 := setName_long h (by omega)
    constructor
    · rintro (h2 | h2 | h2) <;> (rw [h2] at h1; simp at h1)
    · rintro (rfl | rfl | rfl) <;> simp at hl

example : LastComponent b!"C:/x/a.txt" b!"a.txt" ∧ ¬ Unusable b!"a.txt" ∧ setName b!"C:/x/a.txt" = b!"a.txt" :=
  ⟨⟨by decide, .inr ⟨b!"C:/x", rfl⟩⟩, by unfold Unusable; decide, by decide +kernel⟩

/-! ### C69 -/

section
variable {ρ σ F : Type} [Producer ρ]

theorem bodyLoop_over {L : Lawful ρ} {k : Nat} (hk : k ≤ 39) (l : Nat) (B : Bytes) (hB : l < B.length) :
    ∀ (fuel i : Nat) (acc chunk : Bytes) (s : LazyStream ρ), SK L k s → s.size + 2 ≤ fuel →
      L.sc s = B.drop (65536 * (i + 1)) → acc.length + chunk.length = min (65536 * (i + 1)) B.length →
      chunk ≠ [] → 65536 * i ≤ l →
      ∃ s', SK L k s' ∧ L.sc s' = B.drop (65536 * (l / 65536 + 1)) ∧
        bodyLoop (some (l : Int)) fuel acc chunk (acc.length + chunk.length) s = (.error .requestDataTooBig, s') := by
  intro fuel
  induction fuel with
  | zero => intro i acc chunk s _ h; omega
  | succ fuel ih =>
    intro i acc chunk s hs hf hc hn hne hi
    unfold bodyLoop
    by_cases hw : 65536 * (i + 1) ≤ l
    · rw [if_pos ⟨by simp [withinLimit]; omega, hne⟩]
      obtain ⟨s1, e, hs1, c1, z1⟩ := hs.read hk 65536
      have e' : s.read (some 65536) = (.ok ((L.sc s).take 65536), s1) := e
      rw [e']
      simp only
      have hlen : (L.sc s).length = B.length - 65536 * (i + 1) := by rw [hc]; simp
      have hpos : (L.sc s).take 65536 ≠ [] := by
        intro h
        have := congrArg List.length h
        simp only [List.length_take, List.length_nil] at this
        omega
      have := ih (i + 1) (acc ++ chunk) ((L.sc s).take 65536) s1 hs1 (by omega) (by
          rw [c1, hc, List.drop_drop]; congr 1) (by
          simp only [List.length_append, List.length_take]; omega) hpos hw
      rw [List.length_append] at this
      exact this
    · have hw' : withinLimit (some (l : Int)) (acc.length + chunk.length) = false := by
        simp [withinLimit]; omega
      refine ⟨s, hs, ?_, ?_⟩
      · rw [hc]; congr 2; omega
      · rw [if_neg (by rw [hw']; simp), if_pos hw']

/-- **C69, exactly**: for a body longer than the limit `l`, `body()` raises `RequestDataTooBig` after taking
the first `64 KiB * (l / 64 KiB + 1)` bytes.  Asked again it returns the rest as the whole body if that is
within the limit, and raises again otherwise. -/
theorem C69_exact (L : Lawful ρ) (k : Nat) (hk : k ≤ 39) (E : Env ρ σ F) (S : Settings) (l : Nat)
    (hl : S.dataMaxMemory = some (l : Int))
    (r : Req ρ σ F) (hs : SK L k r.stream) (hh : r.headerParsed = true)
    (hp : r.bodyParsed = false) (hb : r.body_ = none) (B : Bytes) (hB : L.sc r.stream = B) (hbig : l < B.length) :
    ∃ s, SK L k s ∧ L.sc s = B.drop (65536 * (l / 65536 + 1)) ∧
      body E S r = (.error .requestDataTooBig, S, { r with stream := s }) ∧
      (B.length ≤ 65536 * (l / 65536 + 1) + l → ∃ r2, body E S { r with stream := s } =
        (.ok (.b (B.drop (65536 * (l / 65536 + 1)))), S, r2)) ∧
      (65536 * (l / 65536 + 1) + l < B.length → ∃ r2, body E S { r with stream := s } =
        (.error .requestDataTooBig, S, r2)) := by
  obtain ⟨s1, e, hs1, c1, z1⟩ := hs.read hk 65536
  have e' : r.stream.read (some 65536) = (.ok ((L.sc r.stream).take 65536), s1) := e
  rw [hB] at e' c1
  have hpos : B.take 65536 ≠ [] := by
    intro h
    have := congrArg List.length h
    simp only [List.length_take, List.length_nil] at this
    omega
  obtain ⟨s2, a1, a2, a3⟩ := bodyLoop_over hk l B hbig (s1.size + 2) 0 [] (B.take 65536) s1 hs1 (by omega)
    (by simpa using c1) (by simp) hpos (by omega)
  have hz : ([] : Bytes).length + (B.take 65536).length = (B.take 65536).length := by simp
  rw [hz] at a3
  have e1 : body E S r = (.error .requestDataTooBig, S, { r with stream := s2 }) := by
    unfold body
    rw [if_pos (.inl hh)]
    unfold bodyCore
    rw [if_neg (by simp [hp]), if_neg (by simp [hp]), hb]
    unfold readBody
    rw [e', hl]
    simp only
    rw [a3]
    simp only [hb]
  have h41 := C41_body_limit L k hk E S { r with stream := s2 } a1 hh hp hb
  simp only [a2] at h41
  refine ⟨s2, a1, a2, e1, fun h => h41.1 ⟨l, hl, ?_⟩, fun h => h41.2 ?_⟩
  · simp only [List.length_drop]; omega
  · rintro ⟨l', h1, h2⟩
    rw [hl] at h1
    cases h1
    simp only [List.length_drop] at h2
    omega

/-- **C69, the part that holds**: the call after the one that raised raises again if more than the limit
is left.  Missing: a rest within the limit, which is returned as the body (`C69_refuted`, `C69_exact`). -/
theorem C69_partial (L : Lawful ρ) (k : Nat) (hk : k ≤ 39) (E : Env ρ σ F) (S : Settings) (l : Nat)
    (hl : S.dataMaxMemory = some (l : Int))
    (r : Req ρ σ F) (hs : SK L k r.stream) (hh : r.headerParsed = true)
    (hp : r.bodyParsed = false) (hb : r.body_ = none)
    (hbig : 65536 * (l / 65536 + 1) + l < (L.sc r.stream).length) :
    ∃ r1 r2, body E S r = (.error .requestDataTooBig, S, r1) ∧ body E S r1 = (.error .requestDataTooBig, S, r2) := by
  obtain ⟨s, _, _, h1, _, h2⟩ := C69_exact L k hk E S l hl r hs hh hp hb _ rfl (by omega)
  obtain ⟨r2, h2⟩ := h2 hbig
  exact ⟨_, r2, h1, h2⟩

/-- Both cases occur: with a limit of 3 bytes, 65540 bytes are refused twice and 65539 once. -/
example (c : UInt8) (n : Nat) (hn : n = 65540 ∨ n = 65539) :=
  C69_exact Source.lawful 0 (by omega) bareEnv { dataMaxMemory := some 3 } 3 rfl
    { reqOf [List.replicate n c] with headerParsed := true } (SK.fresh _ _ trivial) rfl rfl rfl
    (List.replicate n c) (by simp [reqOf, sc_fresh]) (by rw [List.length_replicate]; omega)

/-! ### C70 -/

/-- **C70, the part that holds**: for a request whose body is not a form, `body()` and then
`parse_request_body()` gives the `POST` and `FILES` that `parse()` gives: both are empty.  Missing: forms,
which are lost (`C70_refuted`). -/
theorem C70_partial {L : Lawful ρ} {E : Env ρ σ F} {S : Settings} {p : ρ} {m : Message} {host port : Bytes}
    {type : Option Bytes} {ps : List (Bytes × Bytes)} {qs : List (UStr × UStr)}
    (h : Arrives L E.C S p m host port type ps qs)
    (ht : type.map Py.lower ≠ some b!"application/x-www-form-urlencoded" ∧
      type.map Py.lower ≠ some b!"multipart/form-data")
    (hm : Allowed S.dataMaxMemory m.body.length)
    {u : UStr} (hd : E.C.decode (charsetAfter S ps).defaultCharset m.body = .ok u)
    {w w1 : σ} {H : HandlerOps ρ σ F} (hl : E.load w = (.ok H, w1)) :
    ∃ (r0 r1 r2 ra : Req ρ σ F) (q qa : QDict), Req.new E.C S p = .ok r0 ∧
      body E S r0 = (.ok (.b m.body), charsetAfter S ps, r1) ∧
      parseRequestBody E (charsetAfter S ps) r1 w = (.ok (), r2, w1) ∧
      parseRequest E S r0 w = (.ok (), charsetAfter S ps, ra, w1) ∧
      r2.post = some (.query q) ∧ ra.post = some (.query qa) ∧ q.pairs = [] ∧ qa.pairs = [] ∧
      r2.files = some [] ∧ ra.files = some [] := by
  obtain ⟨r0, r, h1, h2, h3, h4, h5, h6, h7, h8, h9, h10⟩ := header_new (σ := σ) (F := F) h
  have hn : r0.headerParsed = false ∧ r0.bodyParsed = false := by
    have h1' := h1
    unfold Req.new Req.reInit at h1'
    simp only at h1'
    split at h1'
    · cases h1'
    · cases h1'; exact ⟨rfl, rfl⟩
  have hw : withinLimit (charsetAfter S ps).dataMaxMemory (L.sc r.stream).length = true := by
    rw [(charsetAfter_fields S ps).2.1, h5]; exact (withinLimit_iff _ _).2 hm
  obtain ⟨s1, a1, _, a3⟩ := readBody_spec (k := 2) (by omega) (charsetAfter S ps) r h4
  rcases a3 with ⟨_, a3, a4⟩ | ⟨a3, _⟩
  case inr => rw [hw] at a3; cases a3
  rw [h5] at a4
  have e1 : body E S r0 = (.ok (.b m.body), charsetAfter S ps, { r with stream := s1, body_ := some (.b m.body) }) := by
    unfold body
    rw [if_neg (by simp [hn.1, hn.2]), h2]
    simp only
    unfold bodyCore
    rw [if_neg (by simp [h7]), if_neg (by simp [h7]), h8]
    simp only [a4]
  obtain ⟨s2, e2, b1, b2, _⟩ := a1.read (by omega) 1
  have e2' : s1.read (some 1) = (.ok ((L.sc s1).take 1), s2) := e2
  rw [a3] at e2'
  have e3 : ∃ r2, parseRequestBody E (charsetAfter S ps) { r with stream := s1, body_ := some (.b m.body) } w =
      (.ok (), r2, w1) ∧ r2.post = r.post ∧ r2.files = r.files := by
    unfold parseRequestBody
    rw [if_neg (by simp [h7]), hl]
    simp only [h6]
    unfold parseBodyStream
    simp only [e2', List.take_nil, queryDict_none h.codec (by rw [(charsetAfter_fields S ps).1]; exact h.limit.one) false,
      ↓reduceIte]
    exact ⟨_, rfl, rfl, rfl⟩
  obtain ⟨r2, e3, p1, p2⟩ := e3
  rw [h9] at p1
  rw [h10] at p2
  by_cases hb : m.body = []
  · obtain ⟨r0', ra, c1, c2, _, c3, c4⟩ := C77_empty h hb hl
    rw [h1] at c1
    cases c1
    exact ⟨r0, _, r2, ra, _, _, h1, e1, e3, c2, p1, c3, rfl, rfl, p2, c4⟩
  · obtain ⟨r0', ra, c1, _, c2, _⟩ := C77_other h ht hb hm hl
    rw [h1] at c1
    cases c1
    obtain ⟨c3, _, c4, c5, _⟩ := c2 u hd
    exact ⟨r0, _, r2, ra, _, _, h1, e1, e3, c3, p1, c4, rfl, rfl, p2, c5⟩

end

/-- A request with a body that is not a form. -/
def noteMessage (body : Bytes) : Message where
  method := b!"POST"
  scheme := b!"http"
  authority := b!"h"
  path := b!"/"
  proto := b!"HTTP/1.1"
  headers := [(b!"Content-Type", b!"text/plain")]
  body := body

theorem noteMessage_arrives (cs : List Bytes) (body : Bytes) (h : cs.flatten = (noteMessage body).text) :
    Arrives Source.lawful pyCodecs {} ⟨cs⟩ (noteMessage body) b!"h" [] (some b!"text/plain") [] [] where
  size := by decide
  inv := trivial
  ok :=
    { method := by simp only [noteMessage]; decide +kernel
      proto := by simp only [noteMessage]; decide +kernel
      scheme := by simp only [noteMessage]; decide +kernel
      path := by simp only [noteMessage]; decide +kernel
      slash := ⟨[], rfl, by decide⟩
      query := by simp [noteMessage]
      names := by simp only [noteMessage]; decide +kernel
      values := by
        have : ∀ p ∈ [(b!"Content-Type", b!"text/plain")], (∀ c ∈ p.2, Visible c ∨ c = 32 ∨ c = 9) ∧
          (∀ c, p.2.head? = some c → Visible c) ∧ (∀ c, p.2.getLast? = some c → Visible c) := by decide +kernel
        intro p hp
        obtain ⟨h1, h2, h3⟩ := this p hp
        exact ⟨h1, fun c hc => hc.elim (h2 c) (h3 c)⟩
      some := by simp [noteMessage] }
  text := h
  host := ⟨b!"h", b!"h", .inl ⟨by simp [noteMessage], rfl⟩,
    ⟨.inl ⟨by decide, by unfold nameByte; decide +kernel⟩, by simp, .inl ⟨rfl, rfl⟩⟩, .inr ⟨rfl, fun x hx => by
        have := congrArg List.getLast? hx
        simp at this⟩⟩
  content := ⟨by decide +kernel, b!"text/plain",
    by simp only [Message.header, noteMessage]; decide +kernel, .nil⟩
  codec0 := py_asciiCodec (e := .latin1) (by decide +kernel)
  codec := py_asciiCodec (e := .latin1) (by decide +kernel)
  query := ⟨[], .nil, .nil⟩
  limit := by intro l hl; cases hl; exact .inr ⟨by decide, by simp only [noteMessage]; decide +kernel⟩

example (cs : List Bytes) (body : Bytes) (hb : body.length ≤ 5242880) (h : cs.flatten = (noteMessage body).text)
    (H : HandlerOps Source Unit Unit) :=
  C70_partial (E := ⟨pyCodecs, [], fun _ => (.ok H, ()), 0⟩) (noteMessage_arrives cs body h) (by decide +kernel)
    ⟨5242880, by decide, by show (body.length : Int) ≤ 5242880; omega⟩ (u := Py.toU body) (by
      have : lookupEnc b!"ISO-8859-1" = some .latin1 := by decide +kernel
      show pyCodecs.decode b!"ISO-8859-1" body = _
      simp only [pyCodecs, this]
      rfl) (w := ()) rfl

end Verif
