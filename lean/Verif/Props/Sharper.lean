import Verif.Props.ExtendedBoundary
import Verif.Props.Utf8
import Verif.Props.Consumed
/-!
# What UTF-8 makes of surrogates (C75), which exception a boundary in the extended notation raises (C32), the chunk
size with the upload handlers of this library (C33) and what is left of an old body (C43)
-/

namespace Verif
open Spec

namespace Spec

/-- `u` with every pair of surrogates replaced by the character that it stands for. -/
inductive Paired : UStr → UStr → Prop where
  | nil : Paired [] []
  | pair {hi lo u v} : 0xD800 ≤ hi → hi ≤ 0xDBFF → 0xDC00 ≤ lo → lo ≤ 0xDFFF → Paired u v →
      Paired (hi :: lo :: u) ((0x10000 + (hi - 0xD800) * 1024 + (lo - 0xDC00)) :: v)
  | char {c u v} : ¬ ((0xD800 ≤ c ∧ c ≤ 0xDBFF) ∧ ∃ lo t, u = lo :: t ∧ 0xDC00 ≤ lo ∧ lo ≤ 0xDFFF) → Paired u v →
      Paired (c :: u) (c :: v)

end Spec

/-! ### C75 -/

/-- **C75, C56**, what the UTF-8 form of any `unicode` text is in Python 2: pairs of surrogates are joined, and the
resulting code points (a lone surrogate is one) are written in UTF-8. -/
theorem C75_encode : ∀ (u : UStr), (∀ c ∈ u, c < 0x110000) → ∃ v, Paired u v ∧ Utf8 v (utf8Encode u)
  | [], _ => ⟨[], .nil, .nil⟩
  | [c], h => by
    refine ⟨[c], .char (by rintro ⟨_, lo, t, h, _⟩; cases h) .nil, ?_⟩
    have := Utf8.cons (utf8Char_spec (h c (by simp))) .nil
    simpa [utf8Encode] using this
  | c :: d :: t, h => by
    rw [utf8Encode]
    split
    · rename_i hp
      obtain ⟨v, h1, h2⟩ := C75_encode t (fun x hx => h x (by simp [hx]))
      exact ⟨_, .pair hp.1.1 hp.1.2 hp.2.1 hp.2.2 h1, .cons (utf8Char_spec (by omega)) h2⟩
    · rename_i hp
      obtain ⟨v, h1, h2⟩ := C75_encode (d :: t) (fun x hx => h x (List.mem_cons_of_mem _ hx))
      refine ⟨_, .char ?_ h1, .cons (utf8Char_spec (h c (by simp))) h2⟩
      rintro ⟨hc, lo, t', e, hl⟩
      cases e
      exact hp ⟨hc, hl⟩

/-- There is only one such text, so this says what the bytes are. -/
theorem Spec.Paired.unique {u v w : UStr} (h : Paired u v) (g : Paired u w) : v = w := by
  induction h generalizing w with
  | nil => cases g; rfl
  | pair a b c d _ ih =>
    cases g with
    | pair _ _ _ _ g => rw [ih g]
    | char hn _ => exact absurd ⟨⟨a, b⟩, _, _, rfl, c, d⟩ hn
  | char hn _ ih =>
    cases g with
    | pair a b c d _ => exact absurd ⟨⟨a, b⟩, _, _, rfl, c, d⟩ hn
    | char _ g => rw [ih g]

example : Paired [0x61, 0xD83D, 0xDE00, 0xDBFF] [0x61, 0x1F600, 0xDBFF] ∧
    utf8Encode [0x61, 0xD83D, 0xDE00, 0xDBFF] = [0x61, 0xF0, 0x9F, 0x98, 0x80, 0xED, 0xAF, 0xBF] ∧
    utf8Encode [0xDBFF, 0xDFFF] = [0xF4, 0x8F, 0xBF, 0xBF] :=
  ⟨.char (by omega) (.pair (hi := 0xD83D) (lo := 0xDE00) (by decide) (by decide) (by decide) (by decide)
    (.char (by rintro ⟨_, lo, t, h, _⟩; cases h) .nil)), by decide +kernel, by decide +kernel⟩

/-! ### C32 -/

/-- **C32**, a boundary that cannot be used: `MultiPartParserError`, except that a boundary in the extended notation
with a character outside ASCII raises `UnicodeEncodeError` (the message is made with `boundary.decode()`). -/
theorem C32_invalid_refuted {ρ σ F : Type} (C : Codecs) (H : HandlerOps ρ σ F) {type ct : Bytes}
    {ps : List (Bytes × PyStr)} (ht : b!"multipart/" <+: type) (hv : ∀ c ∈ type, Visible c ∧ c ∉ b!";\"")
    (h : ExtMedia C type ps ct) (ha : ∀ c ∈ ct, c < 128) (cl : Option Bytes) :
    (∀ v, extParam ps b!"boundary" = some (.b v) → ¬ BoundaryOk (v.map UInt8.toNat) →
      MultiPart.create C H (some ct) cl = .error .multiPartParserError) ∧
    (∀ u, extParam ps b!"boundary" = some (.u u) → ¬ BoundaryOk u → (∀ c ∈ u, c < 128) →
      MultiPart.create C H (some ct) cl = .error .multiPartParserError) ∧
    (∀ u, extParam ps b!"boundary" = some (.u u) → (∃ c ∈ u, 128 ≤ c) →
      MultiPart.create C H (some ct) cl = .error .unicodeEncodeError) := by
  have h1 : Py.startsWith b!"multipart/" ct = true := by
    unfold Py.startsWith
    exact List.isPrefixOf_iff_prefix.2 (ht.trans (extMedia_prefix h))
  have h2 : Py.isAscii ct = true := (isAscii_iff ct).2 ha
  obtain ⟨d, h3, h4⟩ := parseHeader_ext C ⟨fun hc => (hv _ hc).2 (by decide), fun hc => (hv _ hc).2 (by decide),
    fun c hc => ha c ((extMedia_prefix h).subset hc)⟩ h
  have h5 := h4 b!"boundary"
  have bad : ∀ t : List Nat, ¬ BoundaryOk t → t = [] ∨ validBoundary t = false := fun t hk => by
    right
    rw [← Bool.not_eq_true, validBoundary_iff]
    exact hk
  have ascii : ∀ t : List Nat, BoundaryOk t → ∀ c ∈ t, c < 128 := by
    rintro t ⟨t', c', e, _, h1, h2⟩ c hc
    have : c ∈ t' ∨ c = c' ∨ c = 10 := by
      rcases e with rfl | rfl <;> simp only [List.mem_append, List.mem_cons, List.not_mem_nil, or_false] at hc <;> tauto
    rcases this with h | rfl | rfl
    · have := h1 c h; omega
    · omega
    · omega
  unfold MultiPart.create
  simp only [Option.getD_some, h1, h2, h3, h5, Bool.true_eq_false, if_false]
  refine ⟨fun v e hk => ?_, fun u e hk hu => ?_, fun u e hu => ?_⟩
  · simp only [e]
    rw [if_pos (bad (Py.toU v) hk)]
  · simp only [e]
    rw [if_pos (bad _ hk), if_pos (by simpa using hu)]
  · simp only [e]
    obtain ⟨c, hc, hc'⟩ := hu
    have hk : ¬ BoundaryOk u := fun hk => by have := ascii u hk c hc; omega
    rw [if_pos (bad _ hk), if_neg]
    intro hall
    have := List.all_eq_true.1 hall c hc
    simp at this
    omega

example : MultiPart.create pyCodecs (builtinOps Source goodOs 1) (some b!"multipart/form-data; boundary*=utf-8'en'%C2%80")
    (some b!"12") = .error .unicodeEncodeError :=
  (C32_invalid_refuted pyCodecs _ (type := b!"multipart/form-data") (ps := [(b!"boundary", .u [0x80])]) (by decide)
    (by unfold Visible; decide)
    (.ext (ps := []) (s := b!"multipart/form-data") (n := b!"boundary") (cs := b!"utf-8") (lang := b!"en") (v := b!"%C2%80")
      .nil (by unfold Visible; decide) (by unfold Visible; decide)
      (.coded (b := [0xC2, 0x80]) (by decide) (.esc 67 50 12 2 rfl rfl (.esc 56 48 8 0 rfl rfl .nil)) (by rfl)) (by decide))
    (by decide) (some b!"12")).2.2 [0x80] rfl ⟨0x80, by simp, by decide⟩

/-! ### C33 -/

/-- **C33** with the upload handlers of this library: 65536 bytes, however many there are; without any handler
`2 ** 31 - 4`. -/
theorem C33_builtin (ρ : Type) [Producer ρ] (os : Os) (C : Codecs) (n : Nat) (ct cl : Option Bytes) (m : MultiPart)
    (h : MultiPart.create C (builtinOps ρ os n) ct cl = .ok m) :
    m.chunkSize = if n = 0 then 2 ^ 31 - 4 else 65536 := by
  obtain ⟨h1, h2, h3, h4⟩ := C33_chunk_size C (builtinOps ρ os n) ct cl m h
  have hc : ∀ i, (builtinOps ρ os n).chunkSize i = some 65536 := fun _ => rfl
  have hn : (builtinOps ρ os n).count = n := rfl
  split
  · rename_i h0
    rcases h4 with h4 | ⟨i, hi, _⟩
    · exact h4
    · rw [hn] at hi; omega
  · rename_i h0
    have := h3 0 (by rw [hn]; omega) 65536 (hc 0) (by decide)
    rcases h4 with h4 | ⟨i, hi, e⟩
    · omega
    · rw [hc, Option.some.injEq] at e; exact e.symm

example : (MultiPart.create pyCodecs (builtinOps Source goodOs 2) (some b!"multipart/form-data; boundary=x")
    (some b!"12")).toOption = some ⟨b!"x", 65536, 12⟩ := by decide +kernel

/-! ### C43 -/

section
variable {ρ σ F : Type} [Producer ρ]

theorem parseByType_body (E : Env ρ σ F) (S : Settings) (H : HandlerOps ρ σ F) (r : Req ρ σ F) (w : σ) {b : PyStr}
    (hb : r.body_ = some b) : (parseByType E S H r w).2.1.body_ = some b := by
  have core : ∀ r : Req ρ σ F, r.body_ = some b → (bodyCore S r).2.body_ = some b := by
    intro r hr
    unfold bodyCore
    split
    · exact hr
    · split
      · exact hr
      · rw [hr]; exact hr
  unfold parseByType
  cases r.contentType with
  | none => exact hb
  | some ct =>
    simp only
    split
    · have hf := parseFileUpload_body E S H r w
      rw [hb] at hf
      generalize parseFileUpload E S H r w = z at hf ⊢
      obtain ⟨x, r', w'⟩ := z
      split
      · rename_i e
        cases e
        unfold markError
        cases queryDict E.C S none false <;> exact hf
      · rename_i e
        cases e
        exact hf
      · rename_i e
        cases e
        exact hf
    · split
      · have hf := core r hb
        generalize bodyCore S r = z at hf ⊢
        obtain ⟨x, r'⟩ := z
        cases x with
        | error e => exact hf
        | ok v =>
          simp only
          cases queryDict E.C S (some v) false <;> exact hf
      · cases queryDict E.C S none false <;> exact hb

/-- **C43**, why it is false, for every stored body: when a body has been stored (as parsing leaves it, a `unicode`
object), parsing another one never replaces it by the new one.  The old one is kept, or it is read a second time as
ASCII text in the default charset; if it is not ASCII, no body counts as parsed. -/
theorem C43_stale_refuted (E : Env ρ σ F) (S : Settings) (r : Req ρ σ F) (w : σ) (u : UStr) (hp : r.bodyParsed = false)
    (hb : r.body_ = some (.u u)) :
    ((parseRequestBody E S r w).2.1.bodyParsed = false ∧ (parseRequestBody E S r w).2.1.body_ = some (.u u)) ∨
    ((parseRequestBody E S r w).1 = .ok () ∧ (parseRequestBody E S r w).2.1.bodyParsed = true ∧ (∀ c ∈ u, c < 128) ∧
      ∃ v, E.C.decode S.defaultCharset (u.map UInt8.ofNat) = .ok v ∧
        (parseRequestBody E S r w).2.1.body_ = some (.u v)) := by
  unfold parseRequestBody
  rw [if_neg (by simp [hp])]
  rcases E.load w with ⟨_ | H, w⟩
  · exact .inl ⟨hp, hb⟩
  simp only
  split
  · left
    unfold markError
    cases queryDict E.C S none false <;> exact ⟨hp, hb⟩
  unfold parseBodyStream
  simp only
  rcases r.stream.read (some 1) with ⟨_ | data, s⟩
  · exact .inl ⟨hp, hb⟩
  simp only
  split
  · cases queryDict E.C S none false <;> exact .inl ⟨hp, hb⟩
  rcases s.unget data with ⟨_ | _, s⟩
  · exact .inl ⟨hp, hb⟩
  simp only
  have f := parseByType_frame E S H { r with handlers := some H, stream := s } w
  have g := parseByType_body E S H { r with handlers := some H, stream := s } w hb
  generalize parseByType E S H { r with handlers := some H, stream := s } w = z at f g ⊢
  obtain ⟨_ | _, r1, w1⟩ := z
  · exact .inl ⟨f.bodyParsed.trans hp, g⟩
  have hp1 : r1.bodyParsed = false := f.bodyParsed.trans hp
  have hb1 : r1.body_ = some (.u u) := g
  simp only
  have hc : bodyCore S r1 = (.ok (.u u), r1) := by
    unfold bodyCore
    rw [hp1, hb1]
    simp
  unfold finishBody
  rw [hc]
  simp only [decodeBody]
  by_cases ha : u.all (· < 128) = true
  · rw [if_pos ha]
    cases hd : E.C.decode S.defaultCharset (u.map UInt8.ofNat) with
    | error e => exact .inl ⟨hp1, hb1⟩
    | ok v => exact .inr ⟨rfl, rfl, by simpa using ha, v, rfl, rfl⟩
  · rw [if_neg ha]
    exact .inl ⟨hp1, hb1⟩

end

example : let t := b!"POST http://h/ HTTP/1.1\r\nContent-Type: text/plain\r\n\r\n"
    (twice (t ++ [0xE9]) (t ++ b!"bb")).body_ = some (.u [0xE9]) ∧ (twice (t ++ [0xE9]) (t ++ b!"bb")).bodyParsed = false ∧
    (twice (t ++ b!"e") (t ++ b!"bb")).bodyParsed = true := by decide +kernel

end Verif
