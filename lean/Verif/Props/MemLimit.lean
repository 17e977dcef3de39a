import Verif.Proofs.MemLimit
import Verif.Props.Limits
/-!
# C107: the memory limit refuses exactly the forms that are too big

`fieldSize` of a stored field is the length of its value and of its name and 2 more.
-/

namespace Verif
open Spec

section
variable {ρ σ F : Type} [Producer ρ] {L : Lawful ρ}

/-- **C107.**  The reference is the result `post`, `files` without a memory limit.  If the fields of
`post` are within the limit `n`, the result with the limit is the same (also what is left of the
stream and what the handlers have done); if they are not, `RequestDataTooBig` is raised.  For every
body, boundary, chunk size and way of receiving the body, and any handlers that do not look at the
limit.  Missing: forms with a field sent in base64 (`C107_refuted`, `C107_truncated_refuted`). -/
theorem C107_exact_partial (C : Codecs) (S : Settings) (H : HandlerOps ρ σ F) (fuel64 : Nat)
    (m : MultiPart) (hc : 1 ≤ m.chunkSize) (hl : LeavesParsing L H)
    (hC : ∀ b, C.Avoids (.stopUpload b))
    (hcs : ∀ b k, C.strEncode S.defaultCharset b = .ok k → k = b)
    (hign : ∀ i n1 n2 (S' : Settings) s w,
      H.rawInput i ⟨m.contentLength, m.boundary, { S' with dataMaxMemory := n1 }⟩ s w =
      H.rawInput i ⟨m.contentLength, m.boundary, { S' with dataMaxMemory := n2 }⟩ s w)
    (input : LazyStream ρ) (w : σ) (hi : SOK L input) (n : Int) (hn0 : 0 ≤ n) {post files s' w'}
    (h : m.parse C { S with dataMaxMemory := none } H fuel64 input w = (.ok (post, files), s', w'))
    (hb : ∀ p ∈ items post, p.2.transferEncoding ≠ b!"base64") :
    (((items post).map fieldSize).sum ≤ n →
      m.parse C { S with dataMaxMemory := some n } H fuel64 input w = (.ok (post, files), s', w')) ∧
    (n < ((items post).map fieldSize).sum →
      (m.parse C { S with dataMaxMemory := some n } H fuel64 input w).1 = .error .requestDataTooBig) := by
  obtain ⟨total, h1, h2, h3⟩ := parse_mem C S H fuel64 m hc hl hC hcs hign input w hi n hn0 h
  rw [h1 hb]
  refine ⟨h2, fun hlt => ?_⟩
  rcases h3 hlt with h | ⟨⟨p, hp, hx⟩, _⟩
  · exact h
  · exact absurd hx (hb p hp)

/-- **C107** with fields sent in base64: a form whose fields are not within the limit is refused, with
`RequestDataTooBig` or, if one of them was sent in base64, possibly with `TypeError`. -/
theorem C107_refused_partial (C : Codecs) (S : Settings) (H : HandlerOps ρ σ F) (fuel64 : Nat)
    (m : MultiPart) (hc : 1 ≤ m.chunkSize) (hl : LeavesParsing L H)
    (hC : ∀ b, C.Avoids (.stopUpload b))
    (hcs : ∀ b k, C.strEncode S.defaultCharset b = .ok k → k = b)
    (hign : ∀ i n1 n2 (S' : Settings) s w,
      H.rawInput i ⟨m.contentLength, m.boundary, { S' with dataMaxMemory := n1 }⟩ s w =
      H.rawInput i ⟨m.contentLength, m.boundary, { S' with dataMaxMemory := n2 }⟩ s w)
    (input : LazyStream ρ) (w : σ) (hi : SOK L input) (n : Int) (hn0 : 0 ≤ n) {post files s' w'}
    (h : m.parse C { S with dataMaxMemory := none } H fuel64 input w = (.ok (post, files), s', w'))
    (hlt : n < ((items post).map fieldSize).sum) :
    (m.parse C { S with dataMaxMemory := some n } H fuel64 input w).1 = .error .requestDataTooBig ∨
    ((∃ p ∈ items post, p.2.transferEncoding = b!"base64") ∧
      (m.parse C { S with dataMaxMemory := some n } H fuel64 input w).1 = .error .typeError) := by
  obtain ⟨total, h1, h2, h3⟩ := parse_mem C S H fuel64 m hc hl hC hcs hign input w hi n hn0 h
  apply h3
  by_contra hx
  have := C21_memory_limit C { S with dataMaxMemory := some n } H fuel64 m hc hl hcs input w hi
    (h2 (by omega)) n rfl hn0
  omega

end

/-- The built-in handlers do not look at the limit. -/
theorem builtin_memory {ρ : Type} {os : Os} {k : Nat} {cl : Nat} {bd : Bytes} :
    ∀ i n1 n2 (S' : Settings) s w,
      (builtinOps ρ os k).rawInput i ⟨cl, bd, { S' with dataMaxMemory := n1 }⟩ s w =
      (builtinOps ρ os k).rawInput i ⟨cl, bd, { S' with dataMaxMemory := n2 }⟩ s w := by
  intro i n1 n2 S' s w
  have : ∀ b : Builtin, b.rawInput ⟨cl, bd, { S' with dataMaxMemory := n1 }⟩ =
      b.rawInput ⟨cl, bd, { S' with dataMaxMemory := n2 }⟩ := by
    intro b; cases b <;> rfl
  simp only [builtinOps, this]

/-- A form with one field of three bytes, sent in base64 as four. -/
def base64Field : Bytes :=
  b!"--B\r\nContent-Disposition: form-data; name=\"a\"\r\nContent-Transfer-Encoding: base64\r\n\r\nYWJj\r\n--B--"

/-- The form parsed with one in-memory handler under the limit `n`. -/
def runBase64 (n : Option Int) : Except Exc (List (Bytes × Bytes)) :=
  namesAndValues ((⟨b!"B", 7, 100⟩ : MultiPart).parse latinCodecs { dataMaxMemory := n }
    (builtinOps Source goodOs 1) 10 (LazyStream.mk' ⟨[base64Field]⟩) { hs := [.memory {}] })

/-- **C107** is false of fields sent in base64: the field `a` with the value `abc` takes 3 + 1 + 2 = 6
bytes, but is refused under the limit 6, as what was sent is counted (4 + 1 + 2). -/
theorem C107_refuted : runBase64 none = .ok [(b!"a", b!"abc")] ∧
    runBase64 (some 6) = .error .requestDataTooBig ∧ runBase64 (some 7) = .ok [(b!"a", b!"abc")] := by
  refine ⟨by rfl, by rfl, by rfl⟩

/-- **C107** is false of fields sent in base64: under the limit 3 the encoded value is cut after three
characters, and decoding these raises `TypeError` before the size is compared. -/
theorem C107_truncated_refuted : runBase64 (some 3) = .error .typeError := by rfl

/-- The hypotheses are met by every list of built-in handlers and every body. -/
example (k : Nat) (n : Int) (hn0 : 0 ≤ n) (cs : List Bytes) (w : BWorld) {post files s' w'}
    (h : (⟨b!"B", 7, 100⟩ : MultiPart).parse latinCodecs { dataMaxMemory := none } (builtinOps Source goodOs k) 0
      (LazyStream.mk' ⟨cs⟩) w = (.ok (post, files), s', w'))
    (hb : ∀ p ∈ items post, p.2.transferEncoding ≠ b!"base64") (hlt : n < ((items post).map fieldSize).sum) :
    ((⟨b!"B", 7, 100⟩ : MultiPart).parse latinCodecs { dataMaxMemory := some n } (builtinOps Source goodOs k) 0
      (LazyStream.mk' ⟨cs⟩) w).1 = .error .requestDataTooBig :=
  (C107_exact_partial latinCodecs {} _ 0 _ (by simp) (builtin_leaves Source.lawful _ _)
    (fun b => latin_avoids (by simp) (by simp)) (by
      intro b k h
      simp only [latinCodecs] at h
      split at h <;> simp at h
      exact h.symm) builtin_memory _ w (SOK.fresh cs) n hn0 h hb).2 hlt

/-- Two fields of 1 + 1 + 2 and 2 + 1 + 2 bytes. -/
example : (runTwo {}).1.toOption.map (fun p => ((items p.1).map fieldSize).sum) = some 9 ∧
    (runTwo {}).1.toOption.map (fun p => (items p.1).all (·.2.transferEncoding ≠ b!"base64")) = some true := by
  decide +kernel

end Verif
