import Verif.Props.Request
import Verif.Props.Query
/-!
# What a parsed request hands out can not be changed (C84)
-/

namespace Verif

/-- A `QueryDict` that is built as immutable is an object to which C05 applies; one that is built as
mutable is mutable. -/
theorem newQueryDict_mutable {C : Codecs} {S : Settings} {qs : Option PyStr} {mt : Bool} {m m' : Mem PyStr PyStr}
    (wf : m.WF) {i : Nat} (h : newQueryDict C S qs mt m = (.ok i, m')) :
    (m'.obj i).cls = .query ∧ (m'.obj i).mutable = mt := by
  unfold newQueryDict at h
  simp only at h
  cases hq : queryText C S qs with
  | error e => rw [hq] at h; cases h
  | ok q =>
    rw [hq] at h
    simp only at h
    cases hp : limitedParseQsl C q true S.defaultCharset S.maxFields with
    | error e => rw [hp] at h; cases h
    | ok pairs =>
      rw [hp] at h
      simp only at h
      have wf2 : (m.newDict .query true).WF := wf.newDict ..
      have hi : m.dicts.length < (m.newDict .query true).dicts.length := by simp [Mem.newDict]
      obtain ⟨m2, h2, t2, _⟩ := appendLists_works (C := queryConv C S.defaultCharset) (queryConv_key C _)
        (queryConv_val C _) pairs (i := m.dicts.length) (m.newDict .query true) wf2 hi
        (by simp [Mem.newDict, Mem.obj]) (by simp [Mem.newDict, Mem.obj])
      have kp := t2.kept wf2
      have hi2 : m.dicts.length < m2.dicts.length := by rw [kp.dicts]; exact hi
      have hc : (m2.obj m.dicts.length).cls = .query := by rw [kp.cls]; simp [Mem.newDict, Mem.obj]
      rw [h2] at h
      simp only [Prod.mk.injEq, Except.ok.injEq] at h
      obtain ⟨rfl, rfl⟩ := h
      have e : (m2.setMutable m.dicts.length mt).obj m.dicts.length =
          { m2.obj m.dicts.length with mutable := mt } := by
        simp [Mem.setMutable, Mem.obj, hi2]
      rw [e]
      exact ⟨hc, rfl⟩

section
variable {ρ σ F : Type} [Producer ρ]

theorem queryDict_mutable {C : Codecs} {S : Settings} {qs : Option PyStr} {mt : Bool} {q : QDict}
    (h : queryDict C S qs mt = .ok q) : q.mutable = mt := by
  unfold queryDict at h
  cases h1 : queryText C S qs with
  | error e => rw [h1] at h; cases h
  | ok t =>
    rw [h1] at h
    simp only at h
    cases h2 : limitedParseQsl C t true S.defaultCharset S.maxFields with
    | error e => rw [h2] at h; cases h
    | ok pairs => rw [h2] at h; cases h; rfl

theorem applyQuery_get {C : Codecs} {query : Bytes} {h : MVD Bytes} {S S' : Settings} {r r' : Req ρ σ F}
    (e : applyQuery C query h S r = (.ok (), S', r')) :
    ∃ q, r'.get = some q ∧ r'.info = some ⟨some query, some h⟩ ∧ q.mutable = decide (query = []) := by
  unfold applyQuery at e
  cases hi : r.info with
  | none => rw [hi] at e; cases e
  | some m =>
    rw [hi] at e
    simp only at e
    split at e
    · cases e
    · rename_i q hq
      simp only [Prod.mk.injEq, true_and] at e
      rw [← e.2]
      refine ⟨q, rfl, rfl, ?_⟩
      split at hq
      · rename_i hn
        rw [queryDict_mutable hq]; simpa using hn
      · rename_i hn
        rw [queryDict_mutable hq]; simpa using hn

/-- **C84**, `GET`: whatever request was parsed, `GET` is immutable if there is a query string, and the
mutable empty dictionary if there is none. -/
theorem C84_get {E : Env ρ σ F} {S S' : Settings} {r r' : Req ρ σ F} (hr : r.headerParsed = false)
    (h : parseRequestHeader E S r = (.ok (), S', r')) :
    ∃ q query hd, r'.get = some q ∧ r'.info = some ⟨some query, some hd⟩ ∧ q.mutable = decide (query = []) := by
  unfold parseRequestHeader at h
  rw [if_neg (by simp [hr])] at h
  split at h
  · cases h
  · split at h
    · cases h
    · unfold applyHeader at h
      split at h
      · cases h
      · split at h
        · cases h
        · split at h
          · cases h
          · simp only at h
            split at h
            · cases h
            · obtain ⟨q, h1, h2, h3⟩ := applyQuery_get h
              exact ⟨q, _, _, h1, h2, h3⟩

theorem parseByType_post {E : Env ρ σ F} {S : Settings} {H : HandlerOps ρ σ F} {r r' : Req ρ σ F} {w w' : σ}
    (h : parseByType E S H r w = (.ok (), r', w')) :
    ∃ p, r'.post_ = some p ∧ ∀ q, p = .query q → q.mutable = false := by
  unfold parseByType at h
  split at h
  · cases h
  · split at h
    · split at h
      · cases h
      · cases h
      · simp only [Prod.mk.injEq, true_and] at h
        rw [← h.1]
        exact ⟨_, rfl, fun q hq => by cases hq⟩
    · split at h
      · split at h
        · cases h
        · split at h
          · cases h
          · rename_i q hq
            simp only [Prod.mk.injEq, true_and] at h
            rw [← h.1]
            exact ⟨_, rfl, fun q' hq' => by cases hq'; exact queryDict_mutable hq⟩
      · split at h
        · cases h
        · rename_i q hq
          simp only [Prod.mk.injEq, true_and] at h
          rw [← h.1]
          exact ⟨_, rfl, fun q' hq' => by cases hq'; exact queryDict_mutable hq⟩

theorem bodyCore_post_ (S : Settings) (r : Req ρ σ F) : (bodyCore S r).2.post_ = r.post_ := by
  unfold bodyCore readBody
  split
  · rfl
  · split
    · rfl
    · split
      · rfl
      · split
        · rfl
        · split <;> rfl

/-- **C84**, `POST`: if parsing the body returns, then either the body was empty, `POST` is what it was
before and the body counts as not parsed, or `POST` is a form or an immutable `QueryDict`. -/
theorem C84_post {E : Env ρ σ F} {S : Settings} {r r' : Req ρ σ F} {w w' : σ} (hr : r.bodyParsed = false)
    (h : parseRequestBody E S r w = (.ok (), r', w')) :
    (r'.bodyParsed = false ∧ r'.post = r.post) ∨
    (r'.bodyParsed = true ∧ ∃ p, r'.post = some p ∧ ∀ q, p = .query q → q.mutable = false) := by
  unfold parseRequestBody at h
  rw [if_neg (by simp [hr])] at h
  split at h
  · cases h
  · simp only at h
    split at h
    · simp at h
    · unfold parseBodyStream at h
      split at h
      · cases h
      · simp only at h
        split at h
        · split at h
          · cases h
          · simp only [Prod.mk.injEq, true_and] at h
            rw [← h.1]; exact .inl ⟨hr, rfl⟩
        · split at h
          · cases h
          · split at h
            · cases h
            · rename_i r1 w1 h1
              obtain ⟨p, hp, hq⟩ := parseByType_post h1
              rcases finishBody_cases E.C S r1 with ⟨e, h2, _⟩ | ⟨u, h2⟩
              · simp only [Prod.mk.injEq] at h
                rw [h2] at h; cases h.1
              · rw [h2] at h
                simp only [Prod.mk.injEq, true_and] at h
                rw [← h.1]
                refine .inr ⟨rfl, p, ?_, hq⟩
                exact (bodyCore_post_ S r1).trans hp

end

example : let r := parseRequest bareEnv {} (reqOf [b!"POST http://h/?x=y HTTP/1.1\r\nContent-Type: ",
      b!"application/x-www-form-urlencoded\r\n\r\na=1&b=2"]) ()
    r.1.toOption = some () ∧ r.2.2.1.get = some ⟨[(Py.toU b!"x", Py.toU b!"y")], false⟩ ∧
      r.2.2.1.post = some (.query ⟨[(Py.toU b!"a", Py.toU b!"1"), (Py.toU b!"b", Py.toU b!"2")], false⟩) := by
  decide +kernel

/-- **C84**: no sequence of mutating methods changes what a `QueryDict` made from a query string, as
`GET` and `POST` are, looks up. -/
theorem C84_unchanged {C : Codecs} {S : Settings} {qs : Option PyStr} {m m' : Mem PyStr PyStr} (wf : m.WF) {i : Nat}
    (h : newQueryDict C S qs false m = (.ok i, m')) (K : Conv PyStr PyStr) (fs : List (Mutator PyStr PyStr)) :
    (mutateAll K i fs m').2 = m' := by
  obtain ⟨h1, h2⟩ := newQueryDict_mutable wf h
  exact (C05_immutable K m' i h1 h2 fs).1

end Verif
