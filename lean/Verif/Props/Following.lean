import Verif.Props.OldForm
import Verif.Props.MVDict
/-!
# What follows a request is taken for its body (C99), and headers can be removed (C04)
-/

namespace Verif
open Spec

section
variable {ρ σ F : Type} [Producer ρ]
variable {L : Lawful ρ} {E : Env ρ σ F} {S : Settings} {p : ρ} {m : Message} {host port : Bytes}
  {type : Option Bytes} {ps : List (Bytes × Bytes)} {qs : List (UStr × UStr)}

/-- A number as it is written in a header. -/
def decimal (n : Nat) : Bytes := (Nat.toDigits 10 n).map fun c => UInt8.ofNat c.toNat

theorem Pieces_append {dec : Bytes → UStr → Prop} {a b : List (UStr × UStr)} {s t : List Bytes} (h : Pieces dec a s)
    (h' : Pieces dec b t) : Pieces dec (a ++ b) (s ++ t) := by
  induction h with
  | nil => exact h'
  | skip _ ih => exact .skip ih
  | cons h1 h2 h3 h4 _ ih => exact .cons h1 h2 h3 h4 ih

theorem Joined_append {s t : List Bytes} {x y : Bytes} {sep : UInt8} (hsep : sep = 38 ∨ sep = 59) (h : Joined s x)
    (h' : Joined t y) (hs : s ≠ []) (ht : t ≠ []) : Joined (s ++ t) (x ++ sep :: y) := by
  induction h with
  | nil => exact absurd rfl hs
  | one u => exact .cons u sep hsep ht h'
  | cons u sep' hu hn _ ih =>
    have := Joined.cons u sep' hu (by simp [hn]) (ih hn)
    simpa using this

/-- Two forms with a separator between them are one form with the pairs of both. -/
theorem Written_append {C : Codecs} {enc : Bytes} {a b : List (UStr × UStr)} {x y : Bytes} {sep : UInt8}
    (hsep : sep = 38 ∨ sep = 59) (h : Written C enc a x) (h' : Written C enc b y) :
    Written C enc (a ++ b) (x ++ sep :: y) := by
  obtain ⟨s, h1, h2⟩ := h
  obtain ⟨t, h3, h4⟩ := h'
  have fix : ∀ {c : List (UStr × UStr)} {u : List Bytes} {z : Bytes},
      Pieces (fun b u => C.decodeReplace enc b = .ok u) c u → Joined u z →
      ∃ u', u' ≠ [] ∧ Pieces (fun b u => C.decodeReplace enc b = .ok u) c u' ∧ Joined u' z := by
    intro c u z k1 k2
    cases k2 with
    | nil => exact ⟨[[]], by simp, .skip k1, .one []⟩
    | one => exact ⟨_, by simp, k1, .one z⟩
    | cons v sp k3 k4 k5 => exact ⟨_, by simp, k1, .cons v sp k3 k4 k5⟩
  obtain ⟨s', a1, a2, a3⟩ := fix h1 h2
  obtain ⟨t', b1, b2, b3⟩ := fix h3 h4
  exact ⟨s' ++ t', Pieces_append a2 b2, Joined_append hsep a3 b3 a1 b1⟩

/-- **C99 is false for every form**: the header says that the form has `own.length` bytes, and they are a form with the
pairs `form`; of what follows on the stream every pair is put into `POST` too. -/
theorem C99_form_refuted {t own next : Bytes} {form more : List (UStr × UStr)}
    (h : Arrives L E.C S p m host port (some t) ps qs)
    (ht : Py.lower t = b!"application/x-www-form-urlencoded")
    (_hlen : m.header b!"Content-Length" = some (decimal own.length))
    (hb : m.body = own ++ 38 :: next)
    (hf : Written E.C (charsetAfter S ps).defaultCharset form own)
    (hf' : Written E.C (charsetAfter S ps).defaultCharset more next)
    (hm : Allowed S.dataMaxMemory m.body.length) (hn : Admits S.maxFields (numPieces (Py.toU m.body)))
    {w w1 : σ} {H : HandlerOps ρ σ F} (hl : E.load w = (.ok H, w1)) :
    ∃ r0 r' : Req ρ σ F, Req.new E.C S p = .ok r0 ∧
      parseRequest E S r0 w = (.ok (), charsetAfter S ps, r', w1) ∧ HeadRead m host port (some t) qs r' ∧
      r'.post = some (.query ⟨form ++ more, false⟩) := by
  obtain ⟨r0, r', h1, h2, h3, _, h5, _⟩ := C77_form (form := form ++ more) h ht (by rw [hb]; simp)
    (by rw [hb]; exact Written_append (.inl rfl) hf hf') hm hn hl
  exact ⟨r0, r', h1, h2, h3, h5⟩

/-- **C99 is false for every other body**: the text of the body is made of the `own.length` bytes that the header
announces and of all that follows on the stream. -/
theorem C99_text_refuted {own next : Bytes} {u : UStr} (h : Arrives L E.C S p m host port type ps qs)
    (ht : type.map Py.lower ≠ some b!"application/x-www-form-urlencoded" ∧
      type.map Py.lower ≠ some b!"multipart/form-data")
    (_hlen : m.header b!"Content-Length" = some (decimal own.length))
    (hb : m.body = own ++ next) (hne : own ≠ []) (hm : Allowed S.dataMaxMemory m.body.length)
    (hd : E.C.decode (charsetAfter S ps).defaultCharset (own ++ next) = .ok u)
    {w w1 : σ} {H : HandlerOps ρ σ F} (hl : E.load w = (.ok H, w1)) :
    ∃ r0 r' : Req ρ σ F, Req.new E.C S p = .ok r0 ∧
      parseRequest E S r0 w = (.ok (), charsetAfter S ps, r', w1) ∧ HeadRead m host port type qs r' ∧
      ∀ S2, ∃ r2, body E S2 r' = (.ok (.u u), S2, r2) := by
  obtain ⟨r0, r', h1, h2, h3, _⟩ := C77_other h ht (by rw [hb]; simp [hne]) hm hl
  obtain ⟨a1, _, _, _, a5⟩ := h3 u (by rw [hb]; exact hd)
  exact ⟨r0, r', h1, a1, h2, a5⟩

end

section
variable {κ α : Type} [DecidableEq κ]
open Mem

/-- **C04 is false for every header dictionary**: of an immutable dictionary `pop` removes any key and gives its values,
`popitem` removes some key, and `clear` all; none of them raises. -/
theorem C04_removed_refuted (m : Mem κ α) (i : Nat) (hi : i < m.dicts.length) (hc : (m.obj i).cls = .immutable)
    (_hm : (m.obj i).mutable = false) :
    (∀ k vs d, m.abs i k = some vs → ∃ r m', pop i k d m = (.ok (.list r), m') ∧ m.elems r = vs ∧
      m'.abs i k = none ∧ ∀ k', k' ≠ k → m'.abs i k' = m.abs i k') ∧
    (∀ n, (∃ k, m.abs i k ≠ none) → ∃ k r m', popItem i n m = (.ok (k, .list r), m') ∧ m.abs i k ≠ none ∧
      m'.abs i k = none ∧ ∀ k', k' ≠ k → m'.abs i k' = m.abs i k') ∧
    ∃ m', clear i m = (.ok (), m') ∧ ∀ k, m'.abs i k = none := by
  have hq : ¬ (m.obj i).cls = .query := by rw [hc]; simp
  refine ⟨?_, ?_, ?_⟩
  · intro k vs d hv
    unfold Mem.abs at hv
    rcases hg : (m.dict i).get? k with _ | r
    · rw [hg] at hv; cases hv
    · rw [hg] at hv
      refine ⟨r, m.setDict i ((m.dict i).erase k), ?_, by simpa using hv, ?_, ?_⟩
      · unfold pop; simp only [if_neg hq, hg]
      · rw [abs_erase hi]; simp [Spec.AMap.upd]
      · intro k' hk; rw [abs_erase hi]; simp [Spec.AMap.upd, hk]
  · intro n ⟨k0, hk0⟩
    have hne : (m.dict i) ≠ [] := by
      intro h0
      apply hk0
      unfold Mem.abs
      rw [h0]; rfl
    have hlt : n % (m.dict i).length < (m.dict i).length :=
      Nat.mod_lt _ (List.length_pos_iff.2 hne)
    refine ⟨(m.dict i)[n % (m.dict i).length].1, (m.dict i)[n % (m.dict i).length].2,
      m.setDict i ((m.dict i).erase (m.dict i)[n % (m.dict i).length].1), ?_, ?_, ?_, ?_⟩
    · unfold popItem; simp only [if_neg hq, List.getElem?_eq_getElem hlt]
    · have hk := (Dict.get?_isSome (m.dict i) (m.dict i)[n % (m.dict i).length].1).2 (by
        unfold Dict.keys
        exact List.mem_map.2 ⟨_, List.getElem_mem hlt, rfl⟩)
      obtain ⟨r, hr⟩ := Option.isSome_iff_exists.1 hk
      unfold Mem.abs
      rw [hr]
      simp
    · rw [abs_erase hi]; simp [Spec.AMap.upd]
    · intro k' hk; rw [abs_erase hi]; simp [Spec.AMap.upd, hk]
  · exact ⟨m.setDict i [], by unfold clear; simp only [if_neg hq], fun k => by rw [abs_clear hi]⟩

/-- A header dictionary with one header. -/
example : ∃ r m', pop 0 b!"Host" none headerMem = (.ok (.list r), m') ∧ m'.abs 0 b!"Host" = none := by
  obtain ⟨h, _⟩ := C04_removed_refuted headerMem 0 (by decide) rfl rfl
  obtain ⟨r, m', h1, _, h3, _⟩ := h b!"Host" [.atom b!"example.com"] none (by decide +kernel)
  exact ⟨r, m', h1, h3⟩

end

/-! ### The hypotheses are met -/

/-- A request with a body of type `ct`, said to be three bytes long. -/
def threeForm (ct body : Bytes) : Message :=
  { noteMessage body with headers := [(b!"Content-Type", ct), (b!"Content-Length", b!"3")] }

theorem threeForm_arrives (cs : List Bytes) {ct body : Bytes} (h : cs.flatten = (threeForm ct body).text)
    (hct : ct = b!"application/x-www-form-urlencoded" ∨ ct = b!"text/plain") :
    Arrives Source.lawful pyCodecs {} ⟨cs⟩ (threeForm ct body) b!"h" [] (some ct) [] [] where
  size := by decide
  inv := trivial
  ok :=
    { method := by simp only [threeForm, noteMessage]; decide +kernel
      proto := by simp only [threeForm, noteMessage]; decide +kernel
      scheme := by simp only [threeForm, noteMessage]; decide +kernel
      path := by simp only [threeForm, noteMessage]; decide +kernel
      slash := ⟨[], rfl, by decide⟩
      query := by simp [threeForm, noteMessage]
      names := by rcases hct with rfl | rfl <;> simp only [threeForm, noteMessage] <;> decide +kernel
      values := by
        have : ∀ p ∈ [(b!"Content-Type", ct), (b!"Content-Length", b!"3")],
          (∀ c ∈ p.2, Visible c ∨ c = 32 ∨ c = 9) ∧
          (∀ c, p.2.head? = some c → Visible c) ∧ (∀ c, p.2.getLast? = some c → Visible c) := by
          rcases hct with rfl | rfl <;> decide +kernel
        intro p hp
        obtain ⟨h1, h2, h3⟩ := this p hp
        exact ⟨h1, fun c hc => hc.elim (h2 c) (h3 c)⟩
      some := by simp [threeForm] }
  text := h
  host := ⟨b!"h", b!"h", .inl ⟨by simp [threeForm, noteMessage], rfl⟩,
    ⟨.inl ⟨by decide, by unfold nameByte; decide +kernel⟩, by simp, .inl ⟨rfl, rfl⟩⟩, .inr ⟨rfl, fun x hx => by
        have := congrArg List.getLast? hx
        simp at this⟩⟩
  content := ⟨by rcases hct with rfl | rfl <;> decide +kernel, ct,
    by rcases hct with rfl | rfl <;> simp only [Message.header, threeForm] <;> decide +kernel, .nil⟩
  codec0 := py_asciiCodec (e := .latin1) (by decide +kernel)
  codec := py_asciiCodec (e := .latin1) (by decide +kernel)
  query := ⟨[], .nil, .nil⟩
  limit := by intro l hl; cases hl; exact .inr ⟨by decide, by simp only [threeForm, noteMessage]; decide +kernel⟩

/-- `a=1`, three bytes, and `&k=v+w` after it. -/
example {σ F : Type} (cs : List Bytes) (h : cs.flatten = (threeForm b!"application/x-www-form-urlencoded" b!"a=1&k=v+w").text) (E : Env Source σ F)
    (hE : E.C = pyCodecs) {w w1 : σ} {H : HandlerOps Source σ F} (hl : E.load w = (.ok H, w1)) :
    ∃ r0 r' : Req Source σ F, Req.new E.C {} ⟨cs⟩ = .ok r0 ∧ (parseRequest E {} r0 w).2.2.1 = r' ∧
      r'.post = some (.query ⟨[(Py.toU b!"a", Py.toU b!"1"), (Py.toU b!"k", Py.toU b!"v w")], false⟩) := by
  obtain ⟨r0, r', h1, h2, _, h4⟩ := C99_form_refuted (E := E) (own := b!"a=1") (next := b!"k=v+w")
    (form := [(Py.toU b!"a", Py.toU b!"1")]) (more := [(Py.toU b!"k", Py.toU b!"v w")])
    (hE ▸ threeForm_arrives cs h (.inl rfl))
    (by decide +kernel) (by simp only [Message.header, threeForm]; decide +kernel) rfl
    (hE ▸ ⟨[b!"a=1"], .cons (kb := b!"a") (vb := b!"1") (kt := b!"a") (vt := b!"1") (formEnc_plain (by decide +kernel))
      (formEnc_plain (by decide +kernel)) rfl rfl .nil, .one _⟩)
    (hE ▸ old_written) ⟨5242880, by decide +kernel, by decide +kernel⟩
    (by intro l hl; cases hl; exact .inr ⟨by decide, by decide +kernel⟩) hl
  exact ⟨r0, r', h1, by rw [h2], h4⟩

/-- `abc`, three bytes, and anything after it. -/
example {σ F : Type} (cs : List Bytes) (next : Bytes) (hn : next.length ≤ 5000000)
    (h : cs.flatten = (threeForm b!"text/plain" (b!"abc" ++ next)).text) (E : Env Source σ F)
    (hE : E.C = pyCodecs) {w w1 : σ} {H : HandlerOps Source σ F} (hl : E.load w = (.ok H, w1)) :
    ∃ r0 r' : Req Source σ F, Req.new E.C {} ⟨cs⟩ = .ok r0 ∧ (parseRequest E {} r0 w).2.2.1 = r' ∧
      ∀ S2, ∃ r2, body E S2 r' = (.ok (.u (Py.toU (b!"abc" ++ next))), S2, r2) := by
  obtain ⟨r0, r', h1, h2, _, h4⟩ := C99_text_refuted (E := E) (own := b!"abc") (next := next)
    (u := Py.toU (b!"abc" ++ next)) (hE ▸ threeForm_arrives cs h (.inr rfl))
    (by decide +kernel) (by simp only [Message.header, threeForm]; decide +kernel) rfl (by decide)
    ⟨5242880, by decide, by
      show (((b!"abc" ++ next).length : Nat) : Int) ≤ 5242880
      have : b!"abc".length = 3 := rfl
      simp only [List.length_append, this]; omega⟩
    (by
      have : lookupEnc b!"ISO-8859-1" = some .latin1 := by decide +kernel
      rw [hE]
      show pyCodecs.decode b!"ISO-8859-1" _ = _
      simp only [pyCodecs, this]
      rfl) hl
  exact ⟨r0, r', h1, by rw [h2], h4⟩

end Verif
