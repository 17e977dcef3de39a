import Verif.Props.Uri
import Verif.Py.Utf8
/-!
# C79: full paths of text
-/

namespace Verif
open Verif.Spec

namespace Spec

/-- The bytes that stand for a query string: of `unicode` only ASCII text has any. -/
inductive QueryBytes : PyStr → Bytes → Prop
  | bytes (s) : QueryBytes (.b s) s
  | text (s : Bytes) (h : ∀ c ∈ s, c < 128) : QueryBytes (.u (Py.toU s)) s

end Spec

theorem uendsWith_slash (s : UStr) : Py.endsWith [47] s = true ↔ s.getLast? = some 47 := by
  unfold Py.endsWith
  rw [List.isSuffixOf_iff_suffix]
  constructor
  · rintro ⟨t, rfl⟩; simp
  · intro h
    obtain ⟨t, rfl⟩ := List.getLast?_eq_some_iff.1 h
    exact ⟨t, rfl⟩

theorem iriToUri_bytes {query : PyStr} {qb : Bytes} (h : QueryBytes query qb) : iriToUri query = .ok (quoteBytes iriSafe qb) := by
  cases h with
  | bytes => rfl
  | text _ ha =>
    have h1 : (Py.toU qb).all (· < 128) = true := by
      simp only [Py.toU, List.all_map, List.all_eq_true, Function.comp, decide_eq_true_eq]
      intro c hc
      exact ha c hc
    simp only [iriToUri, h1, if_true]
    rw [toU_ofNat]

/-- **C79, for a path that is `unicode`** (as `set_path` leaves it): the text is the escaped UTF-8 of the path, the slash if
asked for and missing, and, unless the query string is empty, `?` and the escaped query string. -/
theorem C79_text (C : Codecs) {path : UStr} {pb : Bytes} (hp : C.encode b!"utf-8" path = .ok pb) {query : PyStr} {qb : Bytes}
    (hq : QueryBytes query qb) (force : Bool) (t : Bytes) :
    getFullPath C (.u path) query force = .ok t ↔
      ∃ p q, Escaped pathChar pb p ∧ Escaped uriChar qb q ∧
        t = p ++ (if force = true ∧ path.getLast? ≠ some 47 then b!"/" else []) ++ (if qb = [] then [] else b!"?" ++ q) := by
  have hlen : query.len = 0 ↔ qb = [] := by
    cases hq <;> simp [PyStr.len, Py.toU]
  have hs : (if force && !PyStr.endsSlash (.u path) then b!"/" else []) =
      (if force = true ∧ path.getLast? ≠ some 47 then b!"/" else []) := by
    congr 1
    simp only [PyStr.endsSlash, Bool.and_eq_true, Bool.not_eq_true', ← Bool.not_eq_true, uendsWith_slash, ne_eq]
  have hfull : fullPath C (.u path) query force = .ok (quoteBytes pathSafePct pb ++
      (if force = true ∧ path.getLast? ≠ some 47 then b!"/" else []) ++
      (if qb = [] then [] else b!"?" ++ quoteBytes iriSafe qb)) := by
    rw [← hs]
    unfold fullPath escapeUriPath
    simp only [hp, Bool.false_eq_true, if_false, iriToUri_bytes hq, hlen]
    split <;> simp
  have hmap : getFullPath C (.u path) query force = fullPath C (.u path) query force := by
    unfold getFullPath
    rw [hfull]
    simp only
    have hch := fullPath_chars C _ _ _ _ hfull
    rw [show ∀ l : Bytes, (∀ c ∈ l, c < 128) → l.map (fun c => if c < 128 then c else 63) = l from fun l hl => by
      conv_rhs => rw [← List.map_id l]
      exact List.map_congr_left fun c hc => by simp [hl c hc]]
    exact fun c hc => uriChar_ascii (hch c hc)
  rw [hmap, hfull]
  constructor
  · intro h
    cases h
    exact ⟨_, _, (escaped_iff pathKeeps_iff pb _).2 rfl, (escaped_iff iriKeeps_iff qb _).2 rfl, rfl⟩
  · rintro ⟨p, q, e1, e3, rfl⟩
    rw [(escaped_iff pathKeeps_iff pb _).1 e1, (escaped_iff iriKeeps_iff qb _).1 e3]

/-- **C79** Otherwise it fails: with the exception of encoding the path, or, for a query string that is `unicode` with a
character outside ASCII, with `UnicodeEncodeError`. -/
theorem C79_fails (C : Codecs) (path : UStr) (query : PyStr) (force : Bool) :
    (∀ e, C.encode b!"utf-8" path = .error e → getFullPath C (.u path) query force = .error e) ∧
    (∀ pb q, C.encode b!"utf-8" path = .ok pb → query = .u q → (∃ c ∈ q, 128 ≤ c) →
      getFullPath C (.u path) query force = .error .unicodeEncodeError) := by
  constructor
  · intro e h
    simp [getFullPath, fullPath, escapeUriPath, h]
  · rintro pb q h rfl ⟨c, hc, h1⟩
    have h2 : q.all (· < 128) = false := by
      rw [← Bool.not_eq_true, List.all_eq_true]
      intro hh
      have := hh c hc
      simp only [decide_eq_true_eq] at this
      omega
    have h3 : q.length ≠ 0 := by
      intro h0
      rw [List.length_eq_zero_iff.1 h0] at hc
      cases hc
    simp [getFullPath, fullPath, escapeUriPath, h, PyStr.len, List.length_eq_zero_iff.not.1 h3, iriToUri, h2]

/-- A path with a character outside ASCII and a slash at its end: none is added; to one without it is. -/
example : (getFullPath pyCodecs (.u [47, 233, 47]) (.b b!"a=b c") true).toOption = some b!"/%C3%A9/?a=b%20c" ∧
    (getFullPath pyCodecs (.u [47, 233]) (.u []) true).toOption = some b!"/%C3%A9/" := by decide +kernel

example : pyCodecs.encode b!"utf-8" [47, 233, 47] = .ok [47, 195, 169, 47] ∧ QueryBytes (.b b!"a=b c") b!"a=b c" := ⟨rfl, .bytes _⟩

end Verif
