import Verif.Props.Uri
/-!
# The text that shows a request (C114)
-/

namespace Verif
open Spec

/-- A text in quotation marks that need not be escaped: double ones if there is a single one in it. -/
def Spec.quoted (t : Bytes) : Bytes := if 39 ∈ t then b!"\"" ++ t ++ b!"\"" else b!"'" ++ t ++ b!"'"

theorem reprByte_uri (q c : UInt8) (h : uriChar c = true) (hq : q = 34 ∨ (q = 39 ∧ c ≠ 39)) : reprByte q c = [c] := by
  have k34 := forall_u8 (fun c => !uriChar c || decide (reprByte 34 c = [c])) (by decide +kernel) c
  have k39 := forall_u8 (fun c => !uriChar c || decide (c = 39) || decide (reprByte 39 c = [c])) (by decide +kernel) c
  simp only [h, Bool.not_true, Bool.false_or, Bool.or_eq_true, decide_eq_true_eq] at k34 k39
  rcases hq with rfl | ⟨rfl, hc⟩
  · exact k34
  · rcases k39 with k | k
    · exact absurd k hc
    · exact k

theorem reprBytes_uri {t : Bytes} (h : ∀ c ∈ t, uriChar c = true) : reprBytes t = quoted t := by
  have h34 : (34 : UInt8) ∉ t := fun hm => absurd (h 34 hm) (by decide)
  have key : ∀ q : UInt8, (q = 34 ∨ (q = 39 ∧ 39 ∉ t)) → t.flatMap (reprByte q) = t := by
    intro q hq
    have : ∀ s : Bytes, (∀ c ∈ s, c ∈ t) → s.flatMap (reprByte q) = s := by
      intro s
      induction s with
      | nil => intro _; rfl
      | cons c s ih =>
        intro hs
        rw [List.flatMap_cons, reprByte_uri q c (h c (hs c (by simp))), ih (fun x hx => hs x (by simp [hx]))]
        · rfl
        · rcases hq with hq | ⟨hq, hn⟩
          · exact .inl hq
          · refine .inr ⟨hq, ?_⟩
            rintro rfl
            exact hn (hs 39 (by simp))
    exact this t (fun _ h => h)
  unfold reprBytes quoted
  by_cases hm : (39 : UInt8) ∈ t
  · simp only [hm, h34, not_false_eq_true, and_true, if_true]
    rw [key 34 (.inl rfl)]
  · simp only [hm, false_and, if_false]
    rw [key 39 (.inr ⟨rfl, hm⟩)]

theorem quoted_inj {t t' : Bytes} (h : quoted t = quoted t') : t = t' := by
  have hl : (quoted t).tail.dropLast = t := by
    unfold quoted
    split <;> simp
  have hl' : (quoted t').tail.dropLast = t' := by
    unfold quoted
    split <;> simp
  rw [← hl, ← hl', h]

theorem space_inj : ∀ (A B X Y : Bytes), 32 ∉ A → 32 ∉ B → A ++ (32 :: X) = B ++ (32 :: Y) → A = B ∧ X = Y := by
  intro A
  induction A with
  | nil =>
    intro B X Y _ hB h
    cases B with
    | nil => simpa using h
    | cons b B =>
      simp only [List.nil_append, List.cons_append, List.cons.injEq] at h
      exact absurd (by simp [← h.1]) hB
  | cons a A ih =>
    intro B X Y hA hB h
    cases B with
    | nil =>
      simp only [List.nil_append, List.cons_append, List.cons.injEq] at h
      exact absurd (by simp [h.1]) hA
    | cons b B =>
      simp only [List.cons_append, List.cons.injEq] at h
      obtain ⟨k1, k2⟩ := ih B X Y (fun h => hA (by simp [h])) (fun h => hB (by simp [h])) h.2
      exact ⟨by rw [h.1, k1], k2⟩

section
variable {ρ σ F : Type}

/-- **C114.**  A request is shown with its method and its full path in quotation marks, no character of which is
escaped; without method, or without path and query string, only as a request. -/
theorem C114_repr (C : Codecs) (r : Req ρ σ F) (m : Meta) (hm : r.info = some m) :
    ∃ t, r.getFullPath C false false = .ok t ∧ (t = [] ↔ r.getPath = [] ∧ m.query.getD [] = []) ∧
      r.repr C = .ok (match r.method with
        | none => b!"<HttpRequest>"
        | some M => if t = [] then b!"<HttpRequest>" else b!"<HttpRequest: " ++ M ++ b!" " ++ quoted t ++ b!">") := by
  obtain ⟨p, q, t, h1, h2, h3, _, _⟩ := C79_parts C r.getPath (m.query.getD []) false
  have ht : r.getFullPath C false false = .ok t := by
    unfold Req.getFullPath
    rw [hm]
    exact h1
  have hnil : t = [] ↔ r.getPath = [] ∧ m.query.getD [] = [] := by
    obtain ⟨p', s, q', e1, e2, e3, e4⟩ := (C79_full_path C r.getPath (m.query.getD []) false t).1 h1
    have es : s = [] := by
      unfold Slash at e2
      simpa using e2
    subst es
    have ep : p' = [] ↔ r.getPath = [] := by
      constructor
      · intro h
        rw [h] at e1
        generalize r.getPath = a at e1
        cases e1
        rfl
      · intro h
        rw [h] at e1
        cases e1
        rfl
    rw [e4]
    by_cases hq : m.query.getD [] = []
    · simp [hq, ep]
    · simp [hq]
  refine ⟨t, ht, hnil, ?_⟩
  unfold Req.repr
  cases r.method with
  | none => rfl
  | some M =>
    simp only [ht]
    by_cases h : t = []
    · simp [h]
    · simp only [h, if_false]
      rw [reprBytes_uri (C56_chars C _ _ _ t h1).1]

/-- **C114** The text says which request it is: requests with different methods (without spaces) or different full
paths are shown differently. -/
theorem C114_distinct (C : Codecs) (r r' : Req ρ σ F) (m m' : Meta) (M M' t t' : Bytes) (hm : r.info = some m)
    (hm' : r'.info = some m') (hM : r.method = some M) (hM' : r'.method = some M') (hs : 32 ∉ M) (hs' : 32 ∉ M')
    (ht : r.getFullPath C false false = .ok t) (ht' : r'.getFullPath C false false = .ok t') (hne : t ≠ [])
    (he : r.repr C = r'.repr C) : t' = [] ∨ (M = M' ∧ t = t') := by
  obtain ⟨u, a1, _, a3⟩ := C114_repr C r m hm
  obtain ⟨u', b1, _, b3⟩ := C114_repr C r' m' hm'
  rw [ht] at a1
  rw [ht'] at b1
  cases a1
  cases b1
  by_cases hn : t' = []
  · exact .inl hn
  right
  rw [a3, b3, hM, hM'] at he
  simp only [hne, hn, if_false, Except.ok.injEq, List.append_assoc] at he
  have he := List.append_cancel_left he
  obtain ⟨k1, k2⟩ := space_inj M M' _ _ hs hs' he
  refine ⟨k1, ?_⟩
  have k3 : quoted t = quoted t' := List.append_cancel_right (bs := b!">") k2
  exact quoted_inj k3

end

section
variable {ρ σ F : Type} [Producer ρ]

/-- **C114, for a request that was parsed**: the text shows the method, path and query string that were sent. -/
theorem C114_sent {L : Lawful ρ} {E : Env ρ σ F} {S : Settings} {p : ρ} {m : Message} {host port : Bytes}
    {type : Option Bytes} {ps : List (Bytes × Bytes)} {qs : List (UStr × UStr)}
    (h : Arrives L E.C S p m host port type ps qs) (hp : ∀ c ∈ m.path, pathChar c = true)
    (hq : ∀ c ∈ m.query, uriChar c = true) (hne : m.pathQuery ≠ []) :
    ∃ r0 r' : Req ρ σ F, Req.new E.C S p = .ok r0 ∧ r0.repr E.C = .ok b!"<HttpRequest>" ∧
      parseRequestHeader E S r0 = (.ok (), charsetAfter S ps, r') ∧
      r'.repr E.C = .ok (b!"<HttpRequest: " ++ m.method ++ b!" " ++ quoted m.pathQuery ++ b!">") := by
  obtain ⟨r0, r', h1, h2, h3⟩ := C76_header (σ := σ) (F := F) h
  have hf := h3.full E.C hp hq
  refine ⟨r0, r', h1, ?_, h2, ?_⟩
  · have : r0.method = none := by
      unfold Req.new at h1
      split at h1
      · simp at h1
      · unfold Req.reInit at h1
        split at h1
        · rename_i e _ h
          split at h <;> simp at h
          cases h1
        · rename_i h
          split at h <;> simp at h
          cases h1
          rw [← h]
    simp [Req.repr, this]
  · cases hi : r'.info with
    | none => simp [Req.getFullPath, hi] at hf
    | some i =>
      obtain ⟨t, a1, _, a3⟩ := C114_repr E.C r' i hi
      rw [hf] at a1
      cases a1
      rw [a3, h3.method]
      simp [hne]

end

-- the expectations of `test_httprequest_repr` (`tests/requests/requests.py:59-78`)
example : (Req.repr (ρ := Source) (σ := Unit) (F := Unit) pyCodecs
    { stream := LazyStream.mk' ⟨[]⟩, info := some {}, method := some b!"GET", path := some b!"/somepath/" }).toOption =
    some b!"<HttpRequest: GET '/somepath/'>" := by decide +kernel
example : (Req.repr (ρ := Source) (σ := Unit) (F := Unit) pyCodecs
    { stream := LazyStream.mk' ⟨[]⟩, info := some {}, method := some b!"GET", path := some b!"" }).toOption =
    some b!"<HttpRequest>" := by decide +kernel
example : (Req.repr (ρ := Source) (σ := Unit) (F := Unit) pyCodecs
    { stream := LazyStream.mk' ⟨[]⟩, info := some {}, method := none, path := some b!"/somepath/" }).toOption =
    some b!"<HttpRequest>" := by decide +kernel

end Verif
