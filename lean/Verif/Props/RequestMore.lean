import Verif.Model.RequestMore
import Verif.Props.Message
import Verif.Props.Load
import Verif.Props.Exact
/-!
# C93-C95: the accessors of a request, closing its files, reading from it
-/

namespace Verif
open Spec
variable {ρ σ F : Type} [Producer ρ]

/-! ### C93 -/

/-- **C93**.  After the header of a well-formed request has been parsed, the accessors give what was sent: method,
protocol, host as written; the port as written, or 443 for `https`, 80 for `http`, and 65536 for neither;
`is_secure()` says whether the scheme is `https`, `is_plain_text()` whether the type is `text/plain`, in any case of
the letters. -/
theorem C93_accessors {L : Lawful ρ} {E : Env ρ σ F} {S : Settings} {p : ρ} {m : Message} {host port : Bytes}
    {type : Option Bytes} {ps : List (Bytes × Bytes)} {qs : List (UStr × UStr)}
    (h : Arrives L E.C S p m host port type ps qs) :
    ∃ r0 r : Req ρ σ F, Req.new E.C S p = .ok r0 ∧ parseRequestHeader E S r0 = (.ok (), charsetAfter S ps, r) ∧
      r.method = some m.method ∧ r.proto = some m.proto ∧ r.host = some host ∧
      r.getPort = (if port ≠ [] then port else if Py.lower m.scheme = b!"https" then b!"443"
        else if Py.lower m.scheme = b!"http" then b!"80" else b!"65536") ∧
      (r.isSecure = true ↔ Py.lower m.scheme = b!"https") ∧
      r.isPlainText = .ok (decide (type.map Py.lower = some b!"text/plain")) := by
  obtain ⟨r0, r, h1, h2, h3⟩ := C76_header (E := E) h
  obtain ⟨q, hq, p1, p2, p3, p4⟩ := h3.port
  refine ⟨r0, r, h1, h2, h3.method, h3.proto, h3.host, ?_, ?_, ?_⟩
  · unfold Req.getPort
    rw [hq]
    by_cases a : port = []
    · rw [if_neg (by simpa using a)]
      by_cases b : Py.lower m.scheme = b!"https"
      · rw [if_pos b, p2 a b]; decide +kernel
      · by_cases c : Py.lower m.scheme = b!"http"
        · rw [if_neg b, if_pos c, p3 a c]; decide +kernel
        · rw [if_neg b, if_neg c, p4 a b c]; decide +kernel
    · rw [if_pos a, p1 a]
  · unfold Req.isSecure
    rw [h3.scheme]
    simp only [decide_eq_true_eq, Option.some.injEq]
    by_cases e : m.scheme = []
    · rw [if_pos e, e]; decide +kernel
    · rw [if_neg e]
  · unfold Req.isPlainText
    rw [h3.contentType]

example (cs : List Bytes) (body : Bytes) (h : cs.flatten = (noteMessage body).text) :=
  C93_accessors (E := namedEnv Source pyCodecs [] goodOs sampleModules defaultHandlers 0) (noteMessage_arrives cs body h)

/-- `set_scheme` takes a scheme that is neither `None` nor empty and ignores the others; nothing else changes. -/
theorem C93_scheme (r : Req ρ σ F) (s : Option Bytes) :
    r.setScheme s = { r with scheme := if s.getD [] = [] then r.scheme else s } := by
  unfold Req.setScheme
  cases s with
  | none => rfl
  | some s => by_cases h : s = [] <;> simp [h]

/-- Before the header is parsed: no method, protocol or host, the port is the text `None`, the request is neither
secure nor plain text, and `is_ajax()` raises `KeyError`. -/
theorem C93_fresh (C : Codecs) (S : Settings) (p : ρ) (r : Req ρ σ F) (h : Req.new C S p = .ok r) :
    r.method = none ∧ r.proto = none ∧ r.host = none ∧ r.getPort = b!"None" ∧ r.isSecure = false ∧
      r.isPlainText = .ok false ∧ r.isAjax = .error .keyError := by
  unfold Req.new Req.reInit at h
  cases hq : queryDict C S none true with
  | error e => rw [hq] at h; cases h
  | ok q =>
    rw [hq] at h
    cases h
    exact ⟨rfl, rfl, rfl, rfl, rfl, rfl, rfl⟩

example : ((Req.new pyCodecs {} ⟨[b!"GET"]⟩ : Except Exc (Req Source Unit Unit)).toOption.map (·.getPort)) = some b!"None" := by
  decide +kernel

/-! ### C94 -/

theorem closeAll_works {gone : Nat → Bool} : ∀ (fs : List Uploaded) (h : Heap),
    (∀ f ∈ fs, f.ref < h.length ∧ (f.inMemory = false → gone f.ref = false)) →
    ∃ h', closeAll gone fs h = (.ok (), h') ∧ h'.length = h.length ∧
      ∀ i, h'[i]? = if i ∈ fs.map Uploaded.ref then h[i]?.map (fun o => { o with closed := true }) else h[i]? := by
  intro fs
  induction fs with
  | nil => intro h _; exact ⟨h, rfl, rfl, by simp⟩
  | cons f fs ih =>
    intro h hf
    obtain ⟨a, b⟩ := hf f (by simp)
    have key : ∃ h1, closeUploaded gone f h = (.ok (), h1) ∧ h1.length = h.length ∧
        ∀ i, h1[i]? = if i = f.ref then h[i]?.map (fun o => { o with closed := true }) else h[i]? := by
      unfold closeUploaded
      rw [List.getElem?_eq_getElem a]
      simp only
      by_cases hc : h[f.ref].closed = true
      · rw [if_pos hc]
        refine ⟨h, rfl, rfl, fun i => ?_⟩
        split
        · rename_i hi
          subst hi
          rw [List.getElem?_eq_getElem a, Option.map_some, ← hc]
        · rfl
      · rw [if_neg hc, if_neg (by rintro ⟨x, y⟩; rw [b x] at y; cases y)]
        refine ⟨_, rfl, by simp, fun i => ?_⟩
        by_cases hi : i = f.ref
        · subst hi
          simp [a]
        · rw [if_neg hi, List.getElem?_set_ne (Ne.symm hi)]
    obtain ⟨h1, k1, k2, k3⟩ := key
    obtain ⟨h', i1, i2, i3⟩ := ih h1 (fun g hg => by rw [k2]; exact hf g (by simp [hg]))
    refine ⟨h', ?_, i2.trans k2, fun i => ?_⟩
    · unfold closeAll
      rw [k1]
      exact i1
    · rw [i3, k3]
      simp only [List.map_cons, List.mem_cons]
      by_cases hi : i = f.ref
      · subst hi
        simp only [true_or, if_true]
        cases h[f.ref]? <;> simp
      · simp only [hi, false_or, if_false]

/-- **C94, the part that holds**: if no temporary file of the request has been moved away, `close()` closes every
file in `_files`, keeps what is in them, and touches no other file.  Missing: temporary files that have been moved,
which is what an application does to keep them (`C94_refuted`). -/
theorem C94_partial (gone : Nat → Bool) (r : Req ρ σ Uploaded) (d : MVD Uploaded) (hd : r.files_ = some d) (h : Heap)
    (hv : ∀ k fs, (k, fs) ∈ d → ∀ f ∈ fs, f.ref < h.length ∧ (f.inMemory = false → gone f.ref = false)) :
    ∃ h', r.close gone h = (.ok (), h') ∧
      (∀ k fs, (k, fs) ∈ d → ∀ f ∈ fs, ∃ o, h[f.ref]? = some o ∧ h'[f.ref]? = some { o with closed := true }) ∧
      (∀ i, (∀ k fs, (k, fs) ∈ d → ∀ f ∈ fs, f.ref ≠ i) → h'[i]? = h[i]?) := by
  obtain ⟨h', a1, _, a3⟩ := closeAll_works (gone := gone) (d.flatMap Prod.snd) h (by
    intro f hf
    obtain ⟨⟨k, fs⟩, b1, b2⟩ := List.mem_flatMap.1 hf
    exact hv k fs b1 f b2)
  refine ⟨h', by unfold Req.close; rw [hd]; exact a1, fun k fs hk f hf => ?_, fun i hi => ?_⟩
  · have hr := (hv k fs hk f hf).1
    refine ⟨h[f.ref], List.getElem?_eq_getElem hr, ?_⟩
    rw [a3, if_pos (List.mem_map_of_mem (List.mem_flatMap.2 ⟨(k, fs), hk, hf⟩)), List.getElem?_eq_getElem hr]
    rfl
  · rw [a3, if_neg]
    intro hc
    obtain ⟨f, hf, rfl⟩ := List.mem_map.1 hc
    obtain ⟨⟨k, fs⟩, b1, b2⟩ := List.mem_flatMap.1 hf
    exact hi k fs b1 f b2 rfl

/-- **C94 is false of the code**: once the temporary file of an upload has been moved away, `close()` raises `OSError`
and the files after it stay open. -/
theorem C94_refuted (gone : Nat → Bool) (r : Req ρ σ Uploaded) (k : Bytes) (f g : Uploaded) (h : Heap) (o o' : FileObj)
    (hd : r.files_ = some [(k, [f, g])]) (h1 : h[f.ref]? = some o) (h2 : o.closed = false)
    (h3 : f.inMemory = false) (h4 : gone f.ref = true) (h5 : h[g.ref]? = some o') (h6 : o'.closed = false)
    (h7 : g.ref ≠ f.ref) :
    ∃ h', r.close gone h = (.error .osError, h') ∧ h'[g.ref]? = some o' := by
  refine ⟨h.set f.ref { o with closed := true }, ?_, ?_⟩
  · unfold Req.close
    rw [hd]
    simp only [List.flatMap_cons, List.flatMap_nil, List.append_nil, closeAll, closeUploaded, h1, h2, h3, h4]
    simp
  · rw [List.getElem?_set_ne (Ne.symm h7)]
    exact h5

/-- Arguments of `new_file` for a file with this name. -/
def plainArgs (n : Bytes) : NewFileArgs := ⟨b!"f", n, b!"text/plain", none, none, [], none⟩

/-- Two uploads on disk, of which the first has been moved. -/
def movedReq : Req Source BWorld Uploaded where
  stream := LazyStream.mk' ⟨[]⟩
  files_ := some [(b!"f", [⟨0, false, b!"a", 1, plainArgs b!"a"⟩, ⟨1, false, b!"b", 1, plainArgs b!"b"⟩])]

example : ∃ h', movedReq.close (· == 0) [{ data := b!"x" }, { data := b!"y" }] = (.error .osError, h') ∧
    h'[1]? = some { data := b!"y" } :=
  C94_refuted (· == 0) movedReq b!"f" _ _ _ _ _ rfl rfl rfl rfl rfl rfl rfl (by decide)

example : ∃ h', movedReq.close (fun _ => false) [{ data := b!"x" }, { data := b!"y" }] = (.ok (), h') := by
  obtain ⟨h', h, _⟩ := C94_partial (fun _ => false) movedReq _ rfl [{ data := b!"x" }, { data := b!"y" }] (by
    intro k fs hk f hf
    simp only [List.mem_singleton, Prod.mk.injEq] at hk
    obtain ⟨rfl, rfl⟩ := hk
    simp only [List.mem_cons, List.not_mem_nil, or_false] at hf
    rcases hf with rfl | rfl <;> decide)
  exact ⟨h', h⟩

/-- After a parse without exception that got as far as a body, what `close()` closes is what `FILES` holds. -/
theorem C94_files {E : Env ρ σ F} {S S' : Settings} {r0 r : Req ρ σ F} {w w' : σ} (h0 : r0.bodyParsed = false)
    (h : parseRequest E S r0 w = (.ok (), S', r, w')) (hb : r.bodyParsed = true) : r.files = r.files_ := by
  unfold parseRequest at h
  split at h
  · cases h
  · rename_i S1 r1 hh
    have h1 : r1.bodyParsed = false := by
      have := (parseRequestHeader_frame E S r0).1
      rw [hh] at this
      exact this.trans h0
    unfold parseRequestBody at h
    rw [if_neg (by rw [h1]; simp)] at h
    cases hl : E.load w with
    | mk x w1 =>
      rw [hl] at h
      cases x with
      | error e => cases h
      | ok H =>
        simp only at h
        by_cases hp : r1.headerParsed = false
        · rw [if_pos hp] at h
          cases h
        · rw [if_neg hp] at h
          unfold parseBodyStream at h
          cases hr : r1.stream.read (some 1) with
          | mk x s =>
            rw [hr] at h
            cases x with
            | error e => cases h
            | ok data =>
              simp only at h
              by_cases hd : data = []
              · rw [if_pos hd] at h
                cases hq : queryDict E.C S1 none false with
                | error e => rw [hq] at h; cases h
                | ok q =>
                  rw [hq] at h
                  cases h
                  rw [h1] at hb
                  cases hb
              · rw [if_neg hd] at h
                cases hu : s.unget data with
                | mk x s2 =>
                  rw [hu] at h
                  cases x with
                  | error e => cases h
                  | ok u =>
                    simp only at h
                    revert h
                    generalize parseByType E S1 H _ w1 = y
                    obtain ⟨x, r2, w2⟩ := y
                    cases x with
                    | error e => intro h; cases h
                    | ok u =>
                      intro h
                      simp only [finishBody] at h
                      cases hc : bodyCore S1 r2 with
                      | mk x r3 =>
                        rw [hc] at h
                        cases x with
                        | error e => cases h
                        | ok b =>
                          simp only at h
                          cases hdd : decodeBody E.C S1 b with
                          | error e => rw [hdd] at h; cases h
                          | ok u => rw [hdd] at h; cases h; rfl

/-! ### C95 -/

/-- **C95, the part that holds**: `read(n)` returns the next `n` bytes of the request that have not been read (fewer
if there are not so many) and leaves the rest.  Missing: reading lines (`C95_refuted`). -/
theorem C95_partial {L : Lawful ρ} {k : Nat} (hk : k ≤ 39) (r : Req ρ σ F) (hs : SK L k r.stream) (n : Nat) :
    ∃ s, r.read (some n) = (.ok ((L.sc r.stream).take n), { r with stream := s }) ∧
      SK L k s ∧ L.sc s = (L.sc r.stream).drop n := by
  obtain ⟨s, h1, h2, h3, _⟩ := hs.read hk n
  refine ⟨s, ?_, h2, h3⟩
  unfold Req.read
  rw [h1]

/-- After the header of a well-formed request, `read` gives its body. -/
theorem C95_body {L : Lawful ρ} {E : Env ρ σ F} {S : Settings} {p : ρ} {m : Message} {host port : Bytes}
    {type : Option Bytes} {ps : List (Bytes × Bytes)} {qs : List (UStr × UStr)}
    (h : Arrives L E.C S p m host port type ps qs) (n : Nat) :
    ∃ r0 r r' : Req ρ σ F, Req.new E.C S p = .ok r0 ∧ parseRequestHeader E S r0 = (.ok (), charsetAfter S ps, r) ∧
      r.read (some n) = (.ok (m.body.take n), r') ∧
      ∀ k : Nat, ∃ r'', r'.read (some k) = (.ok ((m.body.drop n).take k), r'') := by
  obtain ⟨r0, r, h1, h2, _, h4, h5, _⟩ := header_new (σ := σ) (F := F) h
  obtain ⟨s, a1, a2, a3⟩ := C95_partial (by omega) r h4 n
  refine ⟨r0, r, _, h1, h2, by rw [← h5]; exact a1, fun k => ?_⟩
  obtain ⟨s', b1, _⟩ := C95_partial (by omega) { r with stream := s } a2 k
  exact ⟨_, by rw [← h5, ← a3]; exact b1⟩

/-- **C95** An exception of the stream comes out of `read` as it is, but an `IOError` as a `TypeError` (and not as the
`UnreadablePostError` that is meant). -/
theorem C95_errors (r : Req ρ σ F) (n : Option Int) (e : Exc) (s : LazyStream ρ) (h : r.stream.read n = (.error e, s)) :
    r.read n = (.error (if e = .ioError then .typeError else e), { r with stream := s }) := by
  unfold Req.read
  rw [h]
  cases e <;> rfl

/-- A stream that fails. -/
structure BrokenStream where

instance : Producer BrokenStream where
  next s := (.error .ioError, s)
  size _ := 0

example : (({ stream := LazyStream.mk' ⟨⟩ } : Req BrokenStream Unit Unit).read (some 1)).1 = .error .typeError := rfl

/-- **C95 is false of the code**: reading a line, and with it every way to iterate over a request, raises
`AttributeError`, and the properties `stream` and `body_stream` never return the stream. -/
theorem C95_refuted (r : Req ρ σ F) : r.readline = (.error .attributeError, r) ∧ r.getStream = none := ⟨rfl, rfl⟩

example (cs : List Bytes) (body : Bytes) (h : cs.flatten = (noteMessage body).text) :=
  C95_body (E := namedEnv Source pyCodecs [] goodOs sampleModules defaultHandlers 0) (noteMessage_arrives cs body h) 5

end Verif
