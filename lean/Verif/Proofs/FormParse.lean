import Verif.Proofs.Form
import Verif.Proofs.ParseLimits
/-! Parsing a rendered form, continued: the loop over the parts. -/

namespace Verif
open Spec

/-- Handlers that store files.  `Ready w done`: no file is open, `done` lists the files stored so
far: announced name, file object, content.  `Busy w cs done n d`: a file announced with name `n`
is open and has received `d`.  `Taken`: the files that are not refused. -/
structure Stores {ρ σ F : Type} (H : HandlerOps ρ σ F) (Ready : σ → List (Bytes × F × Bytes) → Prop)
    (Busy : σ → List Nat → List (Bytes × F × Bytes) → Bytes → Bytes → Prop) (Taken : NewFileArgs → Prop := fun _ => True) :
    Prop where
  opens : ∀ w done a, Taken a → Ready w done → ∃ w', newFiles H a (List.range H.count) w = (.ok (), w') ∧
    Busy w' (List.replicate H.count 0) done a.fileName []
  feeds : ∀ w cs done n d c, Busy w cs done n d → ∃ cs' w',
    feedChunk H (List.range H.count) c cs w = (.ok (), cs', w') ∧ Busy w' cs' done n (d ++ c)
  completes : ∀ w cs done n d, Busy w cs done n d → d ≠ [] → ∃ f w',
    completeLoop H cs (List.range H.count) w = (.ok (some f), w') ∧ Ready w' (done ++ [(n, f, d)])
  finishes : ∀ w done, Ready w done → ∃ w',
    uploadCompleteLoop H (List.range H.count) w = (.ok (), w') ∧ Ready w' done

/-- A field without content type. -/
def plainItem (v : Bytes) : PostItem :=
  { data := v, contentType := [], transferEncoding := [], extra := [] }

theorem Spec.InLimits.prefix {S : Settings} {a b : List FormItem} (h : InLimits S (a ++ b)) : InLimits S a := by
  constructor
  · intro n hn
    have := h.count n hn
    simp only [fieldsOf, List.filterMap_append, List.length_append] at this ⊢
    omega
  · intro n hn
    have := h.memory n hn
    simp only [formSize, fieldsOf, List.filterMap_append, List.map_append, List.sum_append] at this ⊢
    omega

section
variable {ρ σ F : Type} {H : HandlerOps ρ σ F} {Ready : σ → List (Bytes × F × Bytes) → Prop}
  {Busy : σ → List Nat → List (Bytes × F × Bytes) → Bytes → Bytes → Prop}

theorem FileRun.stores {T : NewFileArgs → Prop} (hs : Stores H Ready Busy T) {fuel64 : Nat} {content : Bytes} {cs cs' : List Nat}
    {w w' : σ} {r : Except Exc Unit} (h : FileRun H fuel64 false content cs w r cs' w') :
    ∀ done n d, Busy w cs done n d → r = .ok () ∧ Busy w' cs' done n (d ++ content) := by
  generalize hb : false = b64 at h
  induction h with
  | stop => intro done n d h; exact ⟨rfl, by simpa using h⟩
  | step h1 _ h3 _ ih =>
    intro done n d h
    obtain ⟨cs2, w2, a1, a2⟩ := hs.feeds _ _ _ _ _ _ h
    rw [h1 hb.symm] at h3
    rw [a1] at h3
    simp only [Prod.mk.injEq, true_and] at h3
    obtain ⟨rfl, rfl⟩ := h3
    have := ih _ _ _ a2
    rw [← List.append_assoc]; exact this
  | fail h1 _ h3 =>
    intro done n d h
    obtain ⟨cs2, w2, a1, a2⟩ := hs.feeds _ _ _ _ _ _ h
    rw [h1 hb.symm] at h3
    rw [a1] at h3
    simp at h3
  | badBase64 h => rw [← hb] at h; simp at h
  | spin h => rw [← hb] at h; simp at h

theorem RecvRun.stores (hs : Stores H Ready Busy) {fuel64 : Nat} {a : NewFileArgs} {content : Bytes}
    {cs : List Nat} {w w' : σ} {r : Except Exc Unit} (h : RecvRun H fuel64 a content w r cs w')
    (ha : a.transferEncoding = none) {done} (hw : Ready w done) :
    r = .ok () ∧ Busy w' cs done a.fileName content := by
  obtain ⟨w1, b1, b2⟩ := hs.opens w done a trivial hw
  cases h with
  | refused h => rw [b1] at h; simp at h
  | fed h h2 =>
    rw [b1] at h
    simp only [Prod.mk.injEq, true_and] at h
    subst h
    rw [ha] at h2
    simpa using FileRun.stores hs h2 _ _ _ b2

/-- Objects made for files. -/
abbrev Made (F : Type) := List ((Bytes × Bytes × Bytes) × F)

def Made.done (m : Made F) : List (Bytes × F × Bytes) := m.map (fun p => (p.1.2.1, p.2, p.1.2.2))
def Made.dict (m : Made F) : MVD F := m.foldl (fun d p => d.append p.1.1 p.2) []

/-- The parser's state after the fields of `past`. -/
structure Fields (st : PState σ F) (past : List FormItem) : Prop where
  post : st.post = (fieldsOf past).foldl (fun d p => MVD.append d p.1 (plainItem p.2)) []
  keys : st.numKeys = (fieldsOf past).length
  bytes : st.numBytes = formSize past

/-- All files of `past` are stored. -/
structure Idle (Ready : σ → List (Bytes × F × Bytes) → Prop) (st : PState σ F) (past : List FormItem) : Prop where
  fields : Fields st past
  old : st.oldField = none
  files : ∃ m : Made F, m.map Prod.fst = filesOf past ∧ st.files = m.dict ∧ Ready st.world m.done

/-- All files of `past` are stored but the last. -/
structure Pending (Busy : σ → List Nat → List (Bytes × F × Bytes) → Bytes → Bytes → Prop)
    (st : PState σ F) (past : List FormItem) : Prop where
  fields : Fields st past
  files : ∃ (m : Made F) (n fn c : Bytes), m.map Prod.fst ++ [(n, fn, c)] = filesOf past ∧ n ≠ [] ∧ c ≠ [] ∧
    st.oldField = some n ∧ st.files = m.dict ∧ Busy st.world st.counters m.done fn c

theorem completeOld_form {st : PState σ F} {past : List FormItem}
    (hs : filesOf past ≠ [] → Stores H Ready Busy)
    (h : Idle Ready st past ∨ Pending Busy st past) :
    ∃ st1, completeOld H st = (.ok (), st1) ∧ Idle Ready st1 past := by
  rcases h with h | h
  · exact ⟨st, by simp [completeOld, h.old], h⟩
  · obtain ⟨m, n, fn, c, h1, h2, h3, h4, h5, h6⟩ := h.files
    obtain ⟨f, w', a1, a2⟩ := (hs (by rw [← h1]; simp)).completes _ _ _ _ _ h6 h3
    cases n with
    | nil => exact absurd rfl h2
    | cons x n =>
      refine ⟨{ st with world := w', files := st.files.append (x :: n) f, oldField := none }, ?_,
        ⟨h.fields.post, h.fields.keys, h.fields.bytes⟩, rfl, m ++ [((x :: n, fn, c), f)], ?_, ?_, ?_⟩
      · simp [completeOld, h4, handleFileComplete, a1]
      · simpa using h1
      · simp [h5, Made.dict]
      · simpa [Made.done] using a2

theorem fileNameOf_plain {fn : Bytes} (h1 : ∀ x ∈ fn, x ≠ 13 ∧ x ≠ 38 ∧ x ≠ 47 ∧ x ≠ 92)
    (h2 : Py.strip fn = fn) : fileNameOf (.b fn) = .ok fn := by
  have h3 : ∀ (fuel : Nat) (s : Bytes), (∀ x ∈ s, x ≠ 38) → unescapeLoop fuel s = .ok s := by
    intro fuel
    induction fuel with
    | zero => intro s _; rfl
    | succ fuel ih =>
      intro s hs
      cases s with
      | nil => rfl
      | cons c t =>
        have := ih t (fun x hx => hs x (by simp [hx]))
        have hc := hs c (by simp)
        simp only [unescapeLoop, this, if_neg hc]
  have h4 : Py.rfindChar 92 fn = none := by
    have : ∀ s : Bytes, 92 ∉ s → Py.rfindChar 92 s = none := by
      intro s
      induction s with
      | nil => intro _; rfl
      | cons c t ih =>
        intro hc
        simp only [List.mem_cons, not_or] at hc
        simp [Py.rfindChar, ih hc.2, Ne.symm hc.1]
    exact this fn (fun hx => (h1 92 hx).2.2.2 rfl)
  simp [fileNameOf, forceText, unescapeEntities, h3 _ fn (fun x hx => (h1 x hx).2.1), ieSanitize, h4, h2]

theorem storeField_plain {C : Codecs} {S : Settings} {name raw : Bytes} {md : MetaData} {st : PState σ F}
    (h : ∀ k, S.dataMaxMemory = some k → ((st.numBytes + raw.length + (name.length + 2) : Nat) : Int) ≤ k)
    (hb : C.strEncode S.defaultCharset name = .ok name) :
    storeField C S name none md raw st = (.ok (), { st with
      numBytes := st.numBytes + raw.length + (name.length + 2)
      post := st.post.append name
        { data := raw, contentType := Py.ustrip ((md.get? b!"content-type").getD ([], [])).1,
          transferEncoding := [], extra := ((md.get? b!"content-type").getD ([], [])).2 } }) := by
  simp only [storeField, reduceCtorEq, if_false, postAppend_plain _ _ hb]
  cases hm : S.dataMaxMemory with
  | none => simp
  | some k =>
    have := h k hm
    rw [if_neg (by simp; omega)]
    rfl

/-- The epilogue contributes nothing. -/
theorem Parses.epilogue (C : Codecs) (S : Settings) (fuel64 : Nat) {sep : Bytes} {r D' st'} {past : List FormItem}
    (hs : filesOf past ≠ [] → Stores H Ready Busy) :
    ∀ (k : Nat) (D : Bytes) (st : PState σ F), D.length ≤ k → ¬ sep <:+: D → ¬ b!"\r\n\r\n" <:+: D →
      (D = [] ∧ Idle Ready st past ∨ D ≠ [] ∧ (Idle Ready st past ∨ Pending Busy st past)) →
      Parses C S H fuel64 sep D st r D' st' → r = .ok () ∧ Idle Ready st' past := by
  intro k
  induction k with
  | zero =>
    intro D st hk _ _ h hp
    have : D = [] := List.length_eq_zero_iff.1 (by omega)
    rcases h with ⟨rfl, h⟩ | ⟨h, _⟩
    · obtain ⟨rfl, rfl⟩ := hp.nil_inv
      exact ⟨rfl, h⟩
    · exact absurd this h
  | succ k ih =>
    intro D st hk h1 h2 h hp
    rcases h with ⟨rfl, h⟩ | ⟨hne, h⟩
    · obtain ⟨rfl, rfl⟩ := hp.nil_inv
      exact ⟨rfl, h⟩
    · obtain ⟨c1, c2⟩ := cut_last h1
      have hnf : Py.find b!"\r\n\r\n" (D.take 1024) = none :=
        Py.find_none_iff_not_infix.2 (fun hc => h2 (hc.trans (List.take_prefix _ _).isInfix))
      obtain ⟨t, md, content, b, r1, D1, st1, e1, e2, e3, e4⟩ := hp.step_inv hne (by
        rw [c1]; rintro e ⟨i, hi, _⟩; rw [hnf] at hi; simp at hi)
      rw [c1] at e1
      obtain ⟨rfl, rfl, rfl⟩ := e1.inv_none hnf
      obtain ⟨st2, f1, f2⟩ := completeOld_form hs h
      obtain ⟨rfl, rfl, rfl⟩ := e2.skip_inv f1 rfl
      rcases e4 with ⟨e, he, _⟩ | ⟨_, g1, _, g3⟩
      · simp at he
      · refine ih D1 _ (by omega) (fun hc => h1 (hc.trans e3.isInfix)) (fun hc => h2 (hc.trans e3.isInfix)) ?_ g3
        by_cases hD : D1 = []
        · exact .inl ⟨hD, f2⟩
        · exact .inr ⟨hD, .inl f2⟩

/-- The parts after the first separator. -/
theorem Parses.form (C : Codecs) (S : Settings) (fuel64 : Nat)
    (hcs : ∀ n, (∀ c ∈ n, c < 128) → C.strEncode S.defaultCharset n = .ok n)
    {boundary tail : Bytes} (h13 : 13 ∉ boundary) (ht : tail ≠ []) (ht1 : ¬ (b!"--" ++ boundary) <:+: tail)
    (ht2 : ¬ b!"\r\n\r\n" <:+: tail) {r D' st'} :
    ∀ (todo past : List FormItem) (st : PState σ F), (filesOf (past ++ todo) ≠ [] → Stores H Ready Busy) →
      (∀ it ∈ todo, it.Ok boundary) → InLimits S (past ++ todo) → (Idle Ready st past ∨ Pending Busy st past) →
      Parses C S H fuel64 (b!"--" ++ boundary)
        (todo.flatMap (fun it => it.text ++ b!"\r\n" ++ (b!"--" ++ boundary)) ++ tail) st r D' st' →
      r = .ok () ∧ Idle Ready st' (past ++ todo) := by
  intro todo
  induction todo with
  | nil =>
    intro past st hs _ _ h hp
    simp only [List.flatMap_nil, List.nil_append, List.append_nil] at hp hs ⊢
    exact Parses.epilogue C S fuel64 hs tail.length tail st (le_refl _) ht1 ht2 (.inr ⟨ht, h⟩) hp
  | cons it todo ih =>
    intro past st hs hok hlim h hp
    have hit := hok it (by simp)
    rw [List.flatMap_cons, List.append_assoc] at hp
    generalize hrest : List.flatMap (fun it => it.text ++ b!"\r\n" ++ (b!"--" ++ boundary)) todo ++ tail =
      rest at hp
    obtain ⟨c1, c2⟩ := cut_form (rest := rest) h13 hit.noSep
    obtain ⟨p1, p2⟩ := partHead_form C hit
    obtain ⟨t, md, content, b, r1, D1, st1, e1, e2, e3, e4⟩ := hp.step_inv (by simp) (by rw [c1]; exact p1)
    rw [c1] at e1
    obtain ⟨⟨d, q1, q2, q3⟩, rfl⟩ := p2 _ _ _ e1
    obtain ⟨st2, f1, f2⟩ := completeOld_form (fun hne => hs (by
      simp only [filesOf, List.filterMap_append, ne_eq, List.append_eq_nil_iff, not_and_or] at hne ⊢
      exact .inl hne)) h
    have hname : forceText (PyStr.b it.name).strip = .ok it.name := by
      simp [PyStr.strip, forceText, hit.trimmed]
    have hlim2 : InLimits S (past ++ [it]) := by
      refine InLimits.prefix (b := todo) ?_
      rwa [List.append_assoc, List.singleton_append]
    have key : r1 = .ok () ∧ b = true ∧ (Idle Ready st1 (past ++ [it]) ∨ Pending Busy st1 (past ++ [it])) := by
      have hk := hit.kind
      cases it with
      | field n v =>
        obtain ⟨rfl, q4⟩ := q3
        have hfo : fieldsOf (past ++ [.field n v]) = fieldsOf past ++ [(n, v)] := by
          simp [fieldsOf, List.filterMap_append]
        have hsz : formSize (past ++ [.field n v]) = formSize past + (v.length + n.length + 2) := by
          simp [formSize, hfo]
        obtain ⟨raw, g1, g2, g3⟩ := e2.field_inv f1 q1 hname rfl (by
          cases hm : S.maxFields with
          | none => rfl
          | some k =>
            have := hlim2.count k hm
            rw [hfo] at this
            simp only [List.length_append, List.length_cons, List.length_nil] at this
            simp only [Option.any_some, decide_eq_false_iff_not, not_lt, f2.fields.keys]
            omega) (by
          cases hm : S.dataMaxMemory with
          | none => rfl
          | some k =>
            have := hlim2.memory k hm
            rw [hsz] at this
            simp only [Option.any_some, decide_eq_false_iff_not, not_lt, f2.fields.bytes]
            omega)
        have hraw : raw = v := by
          rw [g1]
          cases hm : S.dataMaxMemory with
          | none => rfl
          | some k =>
            have := hlim2.memory k hm
            rw [hsz] at this
            simp only [FormItem.data]
            apply List.take_of_length_le
            rw [f2.fields.bytes]
            omega
        have hnl : ∀ k, S.dataMaxMemory = some k → ((st2.numBytes + v.length + (n.length + 2) : Nat) : Int) ≤ k := by
          intro k hm
          have := hlim2.memory k hm
          rw [hsz] at this
          rw [f2.fields.bytes]
          omega
        rw [hraw, q2, FormItem.name, storeField_plain (st := { st2 with numKeys := st2.numKeys + 1 }) hnl
          (hcs n hk.1)] at g2
        simp only [q4, Option.getD_none] at g2
        simp only [Prod.mk.injEq] at g2
        obtain ⟨rfl, rfl⟩ := g2
        refine ⟨rfl, (g3 rfl).2, .inl ⟨⟨?_, ?_, ?_⟩, f2.old, ?_⟩⟩
        · simp only [hfo, List.foldl_append, List.foldl_cons, List.foldl_nil, f2.fields.post]
          rfl
        · simp [hfo, f2.fields.keys]
        · simp only [hsz, f2.fields.bytes]; omega
        · have : filesOf (past ++ [.field n v]) = filesOf past := by
            simp [filesOf, List.filterMap_append]
          rw [this]; exact f2.files
      | file n fn ct c =>
        obtain ⟨rfl, q4⟩ := q3
        obtain ⟨k1, k2, k3, k4, k5, k6, k7, k8⟩ := hk
        have hfn : dispositionFileName d = .ok fn := by
          simp only [dispositionFileName, q4, PyStr.truthy, ne_eq, k4, not_false_eq_true, decide_true, if_true]
          exact fileNameOf_plain k7 k5
        obtain ⟨r0, cs, w, g1, g2⟩ := e2.file_inv f1 q1 hname rfl hfn k4
        obtain ⟨m, m1, m2, m3⟩ := f2.files
        obtain ⟨rfl, hB⟩ := RecvRun.stores (hs (by simp [filesOf, List.filterMap_append])) g1 (by simpa [fileArgs] using q2) m3
        rcases g2 with ⟨_, rfl, rfl, rfl⟩ | ⟨h, _⟩ | ⟨e, h, _⟩
        · have hfo : fieldsOf (past ++ [.file n fn ct c]) = fieldsOf past := by
            simp [fieldsOf, List.filterMap_append]
          have hfi : filesOf (past ++ [.file n fn ct c]) = filesOf past ++ [(n, fn, c)] := by
            simp [filesOf, List.filterMap_append]
          refine ⟨rfl, rfl, .inr ⟨⟨?_, ?_, ?_⟩, m, n, fn, c, ?_, k1, k3, rfl, m2, hB⟩⟩
          · rw [hfo]; exact f2.fields.post
          · rw [hfo]; exact f2.fields.keys
          · unfold formSize; rw [hfo]; exact f2.fields.bytes
          · rw [hfi, m1]
        · simp at h
        · simp at h
    obtain ⟨rfl, rfl, hst⟩ := key
    rcases e4 with ⟨e, he, _⟩ | ⟨_, _, g2, g3⟩
    · simp at he
    · rw [c2] at g2
      rw [g2 (.inl rfl), ← hrest] at g3
      have := ih (past ++ [it]) st1 (by rwa [List.append_assoc, List.singleton_append]) (fun it' h => hok it' (by simp [h])) (by
        rw [List.append_assoc, List.singleton_append]; exact hlim) hst g3
      rwa [List.append_assoc, List.singleton_append] at this

/-- The whole body. -/
theorem Parses.renderForm (C : Codecs) (S : Settings) (fuel64 : Nat)
    (hcs : ∀ n, (∀ c ∈ n, c < 128) → C.strEncode S.defaultCharset n = .ok n)
    {boundary : Bytes} (h13 : 13 ∉ boundary) {pre : Option Bytes} {epi : Bytes} (ha : Around boundary pre epi)
    {r D' st'}
    (its : List FormItem) (hs : filesOf its ≠ [] → Stores H Ready Busy) (w : σ) (hok : ∀ it ∈ its, it.Ok boundary)
    (hlim : InLimits S its) (hw : Ready w [])
    (hp : Parses C S H fuel64 (b!"--" ++ boundary) (Spec.renderForm boundary its pre epi) (PState.start H w) r D' st') :
    r = .ok () ∧ Idle Ready st' its := by
  unfold Spec.renderForm at hp
  generalize hrest : List.flatMap (fun it => it.text ++ b!"\r\n" ++ (b!"--" ++ boundary)) its ++ (b!"--" ++ epi) =
      rest at hp
  obtain ⟨P, hP1, hP2, hP3, hP4⟩ : ∃ P : Bytes,
      cut (b!"--" ++ boundary) (pre.elim [] (· ++ b!"\r\n") ++ (b!"--" ++ boundary ++ rest)) = P ∧
      after (b!"--" ++ boundary) (pre.elim [] (· ++ b!"\r\n") ++ (b!"--" ++ boundary ++ rest)) = rest ∧
      Py.find b!"\r\n\r\n" (P.take 1024) = none ∧ P.length < 1024 := by
    cases pre with
    | none =>
      obtain ⟨c1, c2⟩ := cut_first (sep := b!"--" ++ boundary) (rest := rest)
      exact ⟨[], by simpa using c1, by simpa using c2, by decide, by simp⟩
    | some p =>
      obtain ⟨c1, c2⟩ := cut_form (rest := rest) h13 (ha.preSep p rfl)
      refine ⟨p, by simpa using c1, by simpa using c2, ?_, ha.preShort p rfl⟩
      exact Py.find_none_iff_not_infix.2 (fun hc => ha.preHead p rfl (hc.trans (List.take_prefix _ _).isInfix))
  obtain ⟨t, md, content, b, r1, D1, st1, e1, e2, e3, e4⟩ := hp.step_inv (by simp) (by
    rw [hP1]; rintro e ⟨i, hi, _⟩; rw [hP3] at hi; simp at hi)
  rw [hP1] at e1
  obtain ⟨rfl, rfl, rfl⟩ := e1.inv_none hP3
  obtain ⟨rfl, rfl, rfl⟩ := e2.skip_inv (st1 := PState.start H w) rfl rfl
  rcases e4 with ⟨e, he, _⟩ | ⟨_, _, g2, g3⟩
  · simp at he
  · rw [hP1, hP2] at g2
    rw [g2 (.inr hP4), ← hrest] at g3
    have hhead : ¬ b!"\r\n\r\n" <:+: b!"--" ++ epi := by
      intro hc
      apply ha.epiHead
      obtain ⟨a, b, e⟩ := hc
      match a, e with
      | [], e => simp at e
      | [_], e => simp at e
      | _ :: _ :: a, e =>
        simp only [List.cons_append, List.append_assoc, List.cons.injEq, List.nil_append] at e
        exact ⟨a, b, by simpa using e.2.2⟩
    exact Parses.form C S fuel64 hcs h13 (by simp) ha.epiSep hhead its [] _ hs hok hlim
      (.inl ⟨⟨rfl, rfl, rfl⟩, rfl, [], rfl, rfl, hw⟩) g3

end

theorem get?_foldl_append {α β : Type} (l : List β) (key : β → Bytes) (val : β → α) (n : Bytes) :
    ∀ d : MVD α, Dict.get? (l.foldl (fun d p => MVD.append d (key p) (val p)) d) n =
      if (l.filter (fun p => key p = n)) = [] then Dict.get? d n
      else some ((Dict.get? d n).getD [] ++ (l.filter (fun p => key p = n)).map val) := by
  induction l with
  | nil => intro d; simp
  | cons p l ih =>
    intro d
    rw [List.foldl_cons, ih, MVD.append, Dict.get?_set]
    by_cases h : key p = n
    · subst h
      simp only [if_true, decide_true, List.filter_cons_of_pos, reduceCtorEq, if_false]
      split
      · rename_i h2; simp [h2]
      · simp
    · simp [h]

end Verif
