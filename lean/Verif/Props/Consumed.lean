import Verif.Props.Arrival
/-!
# How far a request is read (C99)
-/

namespace Verif
open Spec
section
variable {ρ σ F : Type} [Producer ρ] {L : Lawful ρ} {k : Nat}

theorem bodyCore_ends (S : Settings) {r r' : Req ρ σ F} {b : PyStr} (h : SK L 39 r.stream)
    (hb : r.body_ = none ∨ L.sc r.stream = []) (e : bodyCore S r = (.ok b, r')) : SK L 39 r'.stream ∧ L.sc r'.stream = [] := by
  unfold bodyCore at e
  split at e
  · cases e
  split at e
  · cases e
  split at e
  · rename_i h1
    cases e
    rcases hb with hb | hb
    · rw [hb] at h1; cases h1
    · exact ⟨h, hb⟩
  · obtain ⟨s', a1, -, ⟨-, a2, a3⟩ | ⟨-, a3⟩⟩ := readBody_spec (Nat.le_refl _) S r h
    · rw [a3] at e
      cases e
      exact ⟨a1, a2⟩
    · rw [a3] at e; cases e

theorem parseFileUpload_body (E : Env ρ σ F) (S : Settings) (H : HandlerOps ρ σ F) (r : Req ρ σ F) (w : σ) :
    (parseFileUpload E S H r w).2.1.body_ = r.body_ := by
  unfold parseFileUpload
  cases r.info.bind (·.headers) with
  | none => rfl
  | some h =>
    simp only
    rcases (if H.count = 0 then E.load w else (.ok H, w)) with ⟨o, w⟩
    cases o with
    | error e => rfl
    | ok H =>
      simp only
      cases MultiPart.create E.C H ((h.get? b!"Content-Type").bind List.getLast?)
          ((h.get? b!"Content-Length").bind List.getLast?) <;> rfl

theorem parseByType_ends {E : Env ρ σ F} (hE : ObliviousEnv L E) (S : Settings) {H : HandlerOps ρ σ F} (hH : Oblivious L H)
    {r r' : Req ρ σ F} (h : SK L 39 r.stream) (hb : r.body_ = none) {w w' : σ}
    (e : parseByType E S H r w = (.ok (), r', w')) : SK L 39 r'.stream ∧ (r'.body_ = none ∨ L.sc r'.stream = []) := by
  obtain ⟨x, r1, t1, w1, e1, -, a1⟩ := parseByType_sim hE S hH r r.stream ⟨h, h, rfl⟩ w
  rw [e] at e1
  cases e1
  refine ⟨a1.left, ?_⟩
  unfold parseByType at e
  cases hct : r.contentType with
  | none => rw [hct] at e; cases e
  | some ct =>
    rw [hct] at e
    simp only at e
    split at e
    · have := parseFileUpload_body E S H r w
      rcases hp : parseFileUpload E S H r w with ⟨x, r2, w2⟩
      rw [hp] at e this
      match x with
      | .ok (p, f) =>
        cases e
        left
        simp only at this ⊢
        rw [this, hb]
      | .error y => exfalso; cases y <;> simp at e
    split at e
    · rcases hc : bodyCore S r with ⟨x, r2⟩
      rw [hc] at e
      match x with
      | .error y => cases e
      | .ok b =>
        obtain ⟨-, c2⟩ := bodyCore_ends S h (Or.inl hb) hc
        simp only at e
        split at e
        · cases e
        · cases e
          exact Or.inr c2
    · split at e
      · cases e
      · cases e
        exact Or.inl hb

theorem parseBodyStream_ends (hk : k ≤ 37) {E : Env ρ σ F} (hE : ObliviousEnv L E) (S : Settings) {H : HandlerOps ρ σ F}
    (hH : Oblivious L H) {r r' : Req ρ σ F} (h : SK L k r.stream) (hb : r.body_ = none) {w w' : σ}
    (e : parseBodyStream E S H r w = (.ok (), r', w')) : SK L 39 r'.stream ∧ L.sc r'.stream = [] := by
  unfold parseBodyStream at e
  obtain ⟨s1, e1, a1, a2, -⟩ := h.read (by omega) 1
  have e1' : r.stream.read (some 1) = (.ok ((L.sc r.stream).take 1), s1) := e1
  rw [e1'] at e
  simp only at e
  split at e
  · rename_i hd
    have h0 : L.sc r.stream = [] := by
      rcases List.take_eq_nil_iff.1 hd with h | h
      · omega
      · exact h
    have h1 : SK L 39 s1 ∧ L.sc s1 = [] := ⟨a1.mono (by omega), by rw [a2, h0]; rfl⟩
    split at e
    · cases e
    · cases e; exact h1
  · obtain ⟨s2, e2, b1, b2⟩ := a1.unget (by omega) ((L.sc r.stream).take 1)
    rw [e2] at e
    simp only at e
    rcases hp : parseByType E S H { r with stream := s2 } w with ⟨x, r3, w3⟩
    rw [hp] at e
    match x with
    | .error y => cases e
    | .ok () =>
      obtain ⟨c1, c2⟩ := parseByType_ends hE S hH (r := { r with stream := s2 }) (b1.mono (by omega)) hb hp
      simp only at e
      rcases hf : finishBody E.C S r3 with ⟨y, r4⟩
      rw [hf] at e
      cases e
      unfold finishBody at hf
      rcases hc : bodyCore S r3 with ⟨z, r5⟩
      rw [hc] at hf
      match z with
      | .error e => cases hf
      | .ok b =>
        obtain ⟨d1, d2⟩ := bodyCore_ends S c1 c2 hc
        simp only at hf
        split at hf
        · cases hf
        · cases hf
          exact ⟨d1, d2⟩

/-- **C99, the part that holds**: when a new request has been parsed without exception, everything that followed
the header has been read, whatever the length given by `Content-Length`.  Missing: the length is not respected
(`C99_refuted`). -/
theorem C99_consumed_partial (L : Lawful ρ) {E : Env ρ σ F} (hE : ObliviousEnv L E) (S S' : Settings) (r r' : Req ρ σ F) (p : ρ)
    (hp : L.Inv p) (hr : r.stream = LazyStream.mk' p) (hb : r.bodyParsed = false) (hb' : r.body_ = none) (w w' : σ)
    (h : parseRequest E S r w = (.ok (), S', r', w')) : ∃ s', r'.stream.read none = (.ok [], s') := by
  unfold parseRequest at h
  have h0 : SK L 0 r.stream := by rw [hr]; exact SK.fresh L p hp
  obtain ⟨x, S1, r1, t1, e1, -, a1⟩ := parseRequestHeader_sim (by omega) E S r r.stream ⟨h0, h0, rfl⟩
  have hfr := parseRequestHeader_frame E S r
  rw [e1] at h hfr
  match x with
  | .error e => cases h
  | .ok () =>
    simp only at h
    rcases hpb : parseRequestBody E S1 r1 w with ⟨y, r2, w2⟩
    rw [hpb] at h
    cases h
    have hb1 : r1.bodyParsed = false := hfr.1.trans hb
    have hb2 : r1.body_ = none := by
      rcases hfr.2.2.2.1 with h | h
      · exact h.trans hb'
      · exact h
    unfold parseRequestBody at hpb
    rw [if_neg (by rw [hb1]; simp)] at hpb
    rcases hl : E.load w with ⟨z, w1⟩
    rw [hl] at hpb
    match z with
    | .error e => cases hpb
    | .ok H =>
      simp only at hpb
      split at hpb
      · cases hpb
      · obtain ⟨c1, c2⟩ := parseBodyStream_ends (by omega) hE _ (hE _ _ _ hl) (r := { r1 with handlers := some H })
          a1.left hb2 hpb
        obtain ⟨s2, b1, _⟩ := (c1.toSOK (Nat.le_refl _)).readAll
        rw [c2] at b1
        exact ⟨s2, b1⟩

end

/-- The same for a request object as it is constructed, with the package's own handlers. -/
theorem C99_new_partial (C : Codecs) (up : List UStr) (os : Os) (mods : Modules (Except Exc Builtin)) (names : List Bytes)
    (fuel64 : Nat) (S S' : Settings) (p : Source) (r r' : Req Source BWorld Uploaded) (w w' : BWorld)
    (hr : Req.new C S p = .ok r)
    (h : parseRequest (namedEnv Source C up os mods names fuel64) S r w = (.ok (), S', r', w')) :
    ∃ s', r'.stream.read none = (.ok [], s') := by
  have key : r.stream = LazyStream.mk' p ∧ r.bodyParsed = false ∧ r.body_ = none := by
    unfold Req.new Req.reInit at hr
    cases hq : queryDict C S none true with
    | error e => rw [hq] at hr; cases hr
    | ok q =>
      rw [hq] at hr
      cases hr
      exact ⟨rfl, rfl, rfl⟩
  exact C99_consumed_partial Source.lawful (namedEnv_oblivious Source.lawful C up os mods names fuel64) S S' r r' p trivial
    key.1 key.2.1 key.2.2 w w' h

/-- The pairs in `POST` of a form request, as the code leaves them. -/
def postPairs (x : Except Exc Unit × Settings × Req Source Unit Unit × Unit) : Option (List (UStr × UStr)) :=
  match x.1, x.2.2.1.post with
  | .ok _, some (.query q) => some q.pairs
  | _, _ => none

/-- A request with a form of three bytes. -/
def threeBytes : Bytes :=
  b!"POST http://h/ HTTP/1.1\r\nContent-Type: application/x-www-form-urlencoded\r\nContent-Length: 3\r\n\r\na=1"

/-- **C99 is false**: what follows the three bytes (here the next request on the same connection) is taken for a part
of the form. -/
theorem C99_refuted : ∃ next : Bytes,
    postPairs (parseRequest bareEnv {} (reqOf [threeBytes]) ()) = some [(Py.toU b!"a", Py.toU b!"1")] ∧
    postPairs (parseRequest bareEnv {} (reqOf [threeBytes ++ next]) ()) =
      some [(Py.toU b!"a", Py.toU b!"1GET /"), (Py.toU b!"b", Py.toU b!"2 HTTP/1.1\r\n\r\n")] :=
  ⟨b!"GET /&b=2 HTTP/1.1\r\n\r\n", by decide +kernel⟩

/-- The hypotheses are met: the request of `C99_refuted`, with more than the three bytes, is parsed without exception. -/
example : (parseRequest bareEnv {} (reqOf [threeBytes ++ b!"GET /&b=2 HTTP/1.1\r\n\r\n"]) ()).1.toOption = some () := by
  decide +kernel

end Verif
