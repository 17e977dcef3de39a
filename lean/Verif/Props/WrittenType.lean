import Verif.Props.Message
import Verif.Props.Utf8
/-!
# What a `Content-Type` header means for a multipart request (C32)
-/

namespace Verif
open Spec

theorem mediaText_prefix {type : Bytes} {ps : List (Bytes × Bytes)} {s : Bytes} (h : MediaText type ps s) : type <+: s := by
  induction h with
  | nil => exact List.prefix_refl _
  | snoc _ _ _ _ ih => exact ih.trans (by rw [List.append_assoc]; exact List.prefix_append _ _)

/-- **C32** for a content type as a client writes it: a media type, then parameters.  Without `boundary` parameter
(the name in any case, the last one counts) the result is an `AttributeError`, whatever else is written; with one it
is a `MultiPartParserError` if the boundary is unusable or the content length negative, and otherwise a parser for
this very boundary and this content length.  (Partial: the property asks for `MultiPartParserError` also when the
parameter is missing.) -/
theorem C32_written_partial {ρ σ F : Type} (C : Codecs) (H : HandlerOps ρ σ F) {type ct : Bytes} {ps : List (Bytes × Bytes)}
    (ht : b!"multipart/" <+: type) (hv : ∀ c ∈ type, Visible c ∧ c ∉ b!";\"") (h : MediaText type ps ct)
    (ha : ∀ c ∈ ct, c < 128) (cl : Option Bytes) :
    (param ps b!"boundary" = none → MultiPart.create C H (some ct) cl = .error .attributeError) ∧
    (∀ b, param ps b!"boundary" = some b →
      (¬ BoundaryOk (Py.toU b) ∨ (∃ l n, cl = some l ∧ Py.parseInt l = some n ∧ n < 0) →
        MultiPart.create C H (some ct) cl = .error .multiPartParserError) ∧
      (BoundaryOk (Py.toU b) → ∀ n : Nat, ((cl = none ∧ n = 0) ∨ (∃ l, cl = some l ∧ Py.parseInt l = none ∧ n = 0) ∨
          ∃ l, cl = some l ∧ Py.parseInt l = some (n : Int)) →
        ∃ m, MultiPart.create C H (some ct) cl = .ok m ∧ m.boundary = b ∧ m.contentLength = n)) := by
  have h1 : Py.startsWith b!"multipart/" ct = true := by
    unfold Py.startsWith
    exact List.isPrefixOf_iff_prefix.2 (ht.trans (mediaText_prefix h))
  have h2 : Py.isAscii ct = true := (isAscii_iff ct).2 ha
  obtain ⟨d, h3, h4⟩ := parseHeader_media C ⟨fun hc => (hv _ hc).2 (by decide), fun hc => (hv _ hc).2 (by decide),
    fun c hc => ha c ((mediaText_prefix h).subset hc)⟩ h
  refine ⟨fun hb => ?_, fun b hb => ?_⟩
  · have h5 := h4 b!"boundary"
    rw [hb] at h5
    unfold MultiPart.create
    simp only [Option.getD_some, h1, h2, h3, h5, Bool.true_eq_false, if_false, Option.map_none]
  · have h5 := h4 b!"boundary"
    rw [hb] at h5
    refine ⟨(C32_boundary_partial C H ct cl h1 h2 h3 h5).1, fun hk n hn => ?_⟩
    have hl : lengthOf cl = n := by
      rcases hn with ⟨rfl, rfl⟩ | ⟨l, rfl, hl, rfl⟩ | ⟨l, rfl, hl⟩ <;> simp [lengthOf, *]
    have hne : Py.toU b ≠ [] := by
      obtain ⟨t, c, e | e, _⟩ := hk <;> simp [e]
    exact ⟨_, (create_ok_iff C H (some ct) cl _).2 ⟨_, d, .b b, h1, h2, h3, h5, hne, (validBoundary_iff _).2 hk,
      by omega, rfl⟩, toU_ofNat b, by simp [hl]⟩

/-- `multipart/form-data; charset=utf-8; BOUNDARY="a b"` names the boundary `a b`; with a length of `12` this is a
parser, with `-1` and without the parameter it is not. -/
example : let type := b!"multipart/form-data"
    let ps := [(b!"charset", b!"utf-8"), (b!"BOUNDARY", b!"a b")]
    let ct := b!"multipart/form-data; charset=utf-8; BOUNDARY=\"a b\""
    MediaText type ps ct ∧ param ps b!"boundary" = some b!"a b" ∧
    (∃ m, MultiPart.create pyCodecs (builtinOps Source goodOs 1) (some ct) (some b!"12") = .ok m ∧
      m.boundary = b!"a b" ∧ m.contentLength = 12) ∧
    MultiPart.create pyCodecs (builtinOps Source goodOs 1) (some ct) (some b!"-1") = .error .multiPartParserError ∧
    MultiPart.create pyCodecs (builtinOps Source goodOs 1) (some b!"multipart/form-data; charset=utf-8") (some b!"12") =
      .error .attributeError := by
  intro type ps ct
  have hv : ∀ c ∈ type, Visible c ∧ c ∉ b!";\"" := by unfold Visible; decide
  have hm1 : MediaText type [(b!"charset", b!"utf-8")] b!"multipart/form-data; charset=utf-8" :=
    MediaText.snoc (ps := []) (s := type) (t := b!"charset=utf-8") .nil (by unfold Visible; decide) (by decide)
      (.inl ⟨by unfold Visible; decide, rfl⟩)
  have hm : MediaText type ps ct :=
    MediaText.snoc (t := b!"BOUNDARY=\"a b\"") hm1 (by unfold Visible; decide) (by decide) (.inr rfl)
  have hp : param ps b!"boundary" = some b!"a b" := by decide +kernel
  have hk : BoundaryOk (Py.toU b!"a b") := (validBoundary_iff _).1 (by decide +kernel)
  have H := fun cl => (C32_written_partial pyCodecs (builtinOps Source goodOs 1) (by decide) hv hm (by decide) cl).2 _ hp
  refine ⟨hm, hp, (H _).2 hk 12 (.inr (.inr ⟨_, rfl, by decide +kernel⟩)),
    (H _).1 (.inr ⟨_, -1, rfl, by decide +kernel, by decide⟩),
    (C32_written_partial pyCodecs (builtinOps Source goodOs 1) (by decide) hv hm1 (by decide) _).1 (by decide +kernel)⟩

end Verif
