import Verif.Props.Conf
/-!
# Which directory is meant (C65, C73)

The upload directory that is used, for every value of the setting: the path is walked component by component,
from the root if it is absolute and from the directory of the package otherwise.
-/

namespace Verif
open Spec

namespace Spec

/-- One component of a path leads from a directory to another; a directory is the names on the way to it. -/
inductive PathStep : List Bytes → Bytes → List Bytes → Prop where
  | here (ns c) : c = [] ∨ c = b!"." → PathStep ns c ns
  | up (ns n) : PathStep (ns ++ [n]) b!".." ns
  | top : PathStep [] b!".." []
  | into (ns c) : c ≠ [] → c ≠ b!"." → c ≠ b!".." → PathStep ns c (ns ++ [c])

/-- Several components. -/
inductive PathWalk : List Bytes → List Bytes → List Bytes → Prop where
  | nil (ns) : PathWalk ns [] ns
  | cons {a b c x xs} : PathStep a x b → PathWalk b xs c → PathWalk a (x :: xs) c

/-- From the directory `a`, the path `p` leads to `b`. -/
def Leads (a : List Bytes) (p : Bytes) (b : List Bytes) : Prop :=
  ∃ c cs, p = c ++ slashed cs ∧ (∀ x ∈ c :: cs, 47 ∉ x) ∧ PathWalk a (c :: cs) b

/-- A directory as an absolute path. -/
def fullPath (ns : List Bytes) : Bytes := if ns = [] then [47] else slashed ns

end Spec

theorem splitChar_join (s : Bytes) : ∃ c cs, Py.splitChar 47 s = c :: cs ∧ s = c ++ slashed cs := by
  induction s with
  | nil => exact ⟨[], [], rfl, rfl⟩
  | cons x t ih =>
    obtain ⟨c, cs, e1, e2⟩ := ih
    unfold Py.splitChar
    by_cases hx : x = 47
    · rw [if_pos hx, e1]
      exact ⟨[], c :: cs, rfl, by rw [hx, slashed, List.nil_append, List.append_assoc, ← e2]; rfl⟩
    · rw [if_neg hx, e1]
      exact ⟨x :: c, cs, rfl, by rw [List.cons_append, ← e2]⟩

/-- The components of a path are those `split('/')` gives. -/
theorem leads_iff (a b : List Bytes) (p : Bytes) : Leads a p b ↔ PathWalk a (Py.splitChar 47 p) b := by
  constructor
  · rintro ⟨c, cs, rfl, h1, h2⟩
    rwa [splitChar_slashed c cs h1]
  · intro h
    obtain ⟨c, cs, e1, e2⟩ := splitChar_join p
    refine ⟨c, cs, e2, ?_, by rwa [← e1]⟩
    rw [← e1]
    exact splitChar_parts p

theorem splitChar_append_slash (a b : Bytes) : Py.splitChar 47 (a ++ 47 :: b) = Py.splitChar 47 a ++ Py.splitChar 47 b := by
  induction a with
  | nil => simp [Py.splitChar]
  | cons x t ih =>
    rw [List.cons_append, Py.splitChar, Py.splitChar]
    by_cases hx : x = 47
    · rw [if_pos hx, if_pos hx, ih]
      rfl
    · obtain ⟨c, cs, e1, _⟩ := splitChar_join t
      rw [if_neg hx, if_neg hx, ih, e1]
      rfl

theorem step_unique {a b b' : List Bytes} {x : Bytes} (h : PathStep a x b) (h' : PathStep a x b') : b' = b := by
  cases h with
  | here _ _ h1 =>
    cases h' with
    | here => rfl
    | up => rcases h1 with h | h <;> simp at h
    | top => rcases h1 with h | h <;> simp at h
    | into _ _ g1 g2 _ => rcases h1 with h | h; exact absurd h g1; exact absurd h g2
  | up _ y =>
    generalize hg : b ++ [y] = g at h'
    cases h' with
    | here _ _ h => rcases h with h | h <;> simp at h
    | up ns n => exact (List.append_inj_left' hg rfl).symm
    | top => simp at hg
    | into _ _ _ _ h => exact absurd rfl h
  | top =>
    generalize hg : ([] : List Bytes) = g at h'
    cases h' with
    | here _ _ h => rcases h with h | h <;> simp at h
    | up ns n => simp at hg
    | top => rfl
    | into _ _ _ _ h => exact absurd rfl h
  | into _ _ h1 h2 h3 =>
    cases h' with
    | here _ _ h => rcases h with h | h; exact absurd h h1; exact absurd h h2
    | up => exact absurd rfl h3
    | top => exact absurd rfl h3
    | into => rfl

theorem walk_unique {a b b' : List Bytes} {xs : List Bytes} (h : PathWalk a xs b) (h' : PathWalk a xs b') : b' = b := by
  induction h with
  | nil => cases h'; rfl
  | cons h1 _ ih =>
    cases h' with
    | cons g1 g2 => rw [step_unique h1 g1] at g2; exact ih g2

/-- The loop of `normpath` walks. -/
theorem normLoop_walk : ∀ (cs acc : List Bytes) (b : List Bytes), (∀ c ∈ acc, c ≠ b!"..") →
    (PathWalk acc.reverse cs b ↔ normLoop true acc cs = b) := by
  intro cs
  induction cs with
  | nil =>
    intro acc b _
    unfold normLoop
    exact ⟨fun h => by cases h; rfl, fun h => by subst h; exact .nil _⟩
  | cons x t ih =>
    intro acc b hacc
    unfold normLoop
    have hstep : ∀ {a b c : List Bytes}, PathStep a x b → (PathWalk a (x :: t) c ↔ PathWalk b t c) := by
      intro a b c h1
      constructor
      · intro h
        cases h with
        | cons g1 g2 => rwa [← step_unique h1 g1]
      · exact .cons h1
    by_cases h1 : x = [] ∨ x = b!"."
    · rw [if_pos h1, ← ih acc b hacc]
      exact hstep (.here _ _ h1)
    · rw [if_neg h1]
      simp only [not_or] at h1
      by_cases h2 : x = b!".."
      · subst h2
        rw [if_neg (by
          rintro (h | h | h)
          · exact h rfl
          · exact absurd h.1 (by simp)
          · cases acc with
            | nil => simp at h
            | cons y ys => exact hacc y (by simp) (by simpa using h)), ← ih acc.tail b
              (fun c hc => hacc c (List.mem_of_mem_tail hc))]
        cases acc with
        | nil => exact hstep .top
        | cons y ys =>
          rw [List.reverse_cons, List.tail_cons]
          exact hstep (.up _ _)
      · rw [if_pos (.inl h2), ← ih (x :: acc) b (by
          intro c hc
          rcases List.mem_cons.1 hc with rfl | hc
          · exact h2
          · exact hacc c hc), List.reverse_cons]
        exact hstep (.into _ _ h1.1 h1.2 h2)

theorem walk_append {a b c : List Bytes} {xs ys : List Bytes} (h1 : PathWalk a xs b) (h2 : PathWalk b ys c) : PathWalk a (xs ++ ys) c := by
  induction h1 with
  | nil => exact h2
  | cons h _ ih => exact .cons h (ih h2)

theorem walk_split {a c : List Bytes} {xs ys : List Bytes} (h : PathWalk a (xs ++ ys) c) : ∃ b, PathWalk a xs b ∧ PathWalk b ys c := by
  induction xs generalizing a with
  | nil => exact ⟨a, .nil _, h⟩
  | cons x xs ih =>
    cases h with
    | cons h1 h2 =>
      obtain ⟨b, g1, g2⟩ := ih h2
      exact ⟨b, .cons h1 g1, g2⟩

theorem walk_names {ns a : List Bytes} (h : ∀ c ∈ ns, PathName c) : PathWalk a ns (a ++ ns) := by
  induction ns generalizing a with
  | nil => rw [List.append_nil]; exact .nil _
  | cons n ns ih =>
    obtain ⟨h1, h2, h3, _⟩ := h n (by simp)
    refine .cons (.into _ _ h1 h2 h3) ?_
    have := ih (a := a ++ [n]) (fun c hc => h c (by simp [hc]))
    simpa using this

/-- Walking a relative path in its normal form is walking the path. -/
theorem walk_rel : ∀ (cs acc a b : List Bytes), (∀ c ∈ acc, c ≠ [] ∧ c ≠ b!".") →
    PathWalk a (acc.reverse ++ cs) b → PathWalk a (normLoop false acc cs) b := by
  intro cs
  induction cs with
  | nil => intro acc a b _ h; simpa [normLoop] using h
  | cons x t ih =>
    intro acc a b hacc h
    unfold normLoop
    obtain ⟨m, g1, g2⟩ := walk_split h
    cases g2 with
    | @cons _ m2 _ _ _ g2 g3 =>
    by_cases h1 : x = [] ∨ x = b!"."
    · rw [if_pos h1]
      refine ih acc a b hacc (walk_append g1 ?_)
      have : m2 = m := step_unique (.here _ _ h1) g2
      rwa [← this]
    · rw [if_neg h1]
      simp only [not_or] at h1
      split
      · refine ih (x :: acc) a b (by
          intro c hc
          rcases List.mem_cons.1 hc with rfl | hc
          · exact h1
          · exact hacc c hc) ?_
        rw [List.reverse_cons, List.append_assoc]
        exact walk_append g1 (.cons g2 g3)
      · rename_i h2
        simp only [not_or, ne_eq, true_and] at h2
        obtain ⟨hxx, hne, hhd⟩ := h2
        obtain rfl : x = b!".." := Classical.not_not.1 hxx
        cases acc with
        | nil => exact absurd rfl hne
        | cons y ys =>
          rw [List.reverse_cons] at g1
          obtain ⟨m0, k1, k2⟩ := walk_split g1
          rw [List.tail_cons]
          refine ih ys a b (fun c hc => hacc c (by simp [hc])) (walk_append k1 ?_)
          cases k2 with
          | cons q1 q2 =>
            cases q2
            have hy := hacc y (by simp)
            have hm : m = m0 ++ [y] := step_unique (.into _ _ hy.1 hy.2 (by simpa using hhd)) q1
            subst hm
            have : m2 = m0 := step_unique (.up _ _) g2
            rwa [← this]

theorem normLoop_rel_parts : ∀ (cs acc : List Bytes), (∀ c ∈ cs, 47 ∉ c) → (∀ c ∈ acc, 47 ∉ c ∧ c ≠ []) →
    ∀ c ∈ normLoop false acc cs, 47 ∉ c ∧ c ≠ [] := by
  intro cs
  induction cs with
  | nil => intro acc _ h c hc; exact h c (List.mem_reverse.1 hc)
  | cons x t ih =>
    intro acc h1 h2
    have h1' : ∀ c ∈ t, 47 ∉ c := fun c hc => h1 c (by simp [hc])
    unfold normLoop
    split
    · exact ih acc h1' h2
    · rename_i hx
      simp only [not_or] at hx
      split
      · refine ih _ h1' (fun c hc => ?_)
        rcases List.mem_cons.1 hc with rfl | hc
        · exact ⟨h1 c (by simp), hx.1⟩
        · exact h2 c hc
      · exact ih _ h1' (fun c hc => h2 c (List.mem_of_mem_tail hc))

theorem joinSlash_eq (c : Bytes) (cs : List Bytes) : joinSlash (c :: cs) = c ++ slashed cs := by
  induction cs generalizing c with
  | nil => simp [joinSlash, slashed]
  | cons d ds ih => rw [joinSlash, slashed, ih d]; simp; simp

theorem joinSlash_full (ns : List Bytes) : [47] ++ joinSlash ns = fullPath ns := by
  cases ns with
  | nil => rfl
  | cons c cs => rw [joinSlash_slashed]; simp [fullPath]

/-- The normal form of a relative path is not empty, does not begin with a slash and leads to the same place. -/
theorem normpath_rel {p : Bytes} (h : isAbs p = false) {a b : List Bytes} (hw : Leads a p b) :
    Leads a (normpath p) b ∧ ∃ x t, normpath p = x :: t ∧ x ≠ 47 := by
  rw [leads_iff] at hw ⊢
  have hdot : PathWalk a (Py.splitChar 47 b!".") b ↔ a = b := by
    have e : Py.splitChar 47 b!"." = [b!"."] := by decide +kernel
    rw [e]
    constructor
    · intro h
      cases h with
      | cons h1 h2 =>
        cases h2
        generalize hd : b!"." = d at h1
        cases h1 with
        | here => rfl
        | up => simp at hd
        | top => simp at hd
        | into _ _ _ g _ => exact absurd hd.symm g
    · rintro rfl
      exact .cons (.here _ _ (.inr rfl)) (.nil _)
  unfold normpath
  by_cases hp : p = []
  · rw [if_pos hp]
    subst hp
    refine ⟨hdot.2 ?_, 46, [], rfl, by decide⟩
    have e : Py.splitChar 47 ([] : Bytes) = [[]] := rfl
    rw [e] at hw
    cases hw with
    | cons h1 h2 =>
      cases h2
      generalize hd : ([] : Bytes) = d at h1
      cases h1 with
      | here => rfl
      | up => simp at hd
      | top => simp at hd
      | into _ _ g _ _ => exact absurd hd.symm g
  · rw [if_neg hp]
    have hs : Py.startsWith [47] p = false := h
    simp only [initialSlashes, hs, Bool.false_eq_true, if_false, List.nil_append]
    have hw2 := walk_rel (Py.splitChar 47 p) [] a b (by simp) (by simpa using hw)
    have hn := normLoop_rel_parts (Py.splitChar 47 p) [] (splitChar_parts p) (by simp)
    generalize normLoop false [] (Py.splitChar 47 p) = names at hw2 hn
    cases names with
    | nil =>
      cases hw2
      rw [if_pos (show joinSlash [] = [] from rfl)]
      exact ⟨hdot.2 rfl, 46, [], rfl, by decide⟩
    | cons c cs =>
      obtain ⟨h1, h2⟩ := hn c (by simp)
      obtain ⟨x, t, rfl⟩ := List.exists_cons_of_ne_nil h2
      rw [joinSlash_eq, if_neg (by simp), splitChar_slashed _ _ (fun y hy => (hn y hy).1)]
      exact ⟨hw2, x, _, rfl, fun e => h1 (by simp [e])⟩

/-- Every path leads somewhere. -/
theorem leads_total (a : List Bytes) (ha : ∀ c ∈ a, c ≠ b!"..") (p : Bytes) : ∃ b, Leads a p b := by
  have h := (normLoop_walk (Py.splitChar 47 p) a.reverse _ (by simpa using ha)).2 rfl
  rw [List.reverse_reverse] at h
  exact ⟨_, (leads_iff _ _ _).2 h⟩

theorem leads_unique {a b b' : List Bytes} {p : Bytes} (h : Leads a p b) (h' : Leads a p b') : b' = b :=
  walk_unique ((leads_iff _ _ _).1 h) ((leads_iff _ _ _).1 h')

/-- The initial slashes that POSIX distinguishes: exactly two, or one. -/
def Spec.twoSlashes (p : Bytes) : Prop := ∃ r, p = 47 :: 47 :: r ∧ r.head? ≠ some 47

theorem initialSlashes_spec {p : Bytes} (h : isAbs p = true) :
    (twoSlashes p → initialSlashes p = [47, 47]) ∧ (¬ twoSlashes p → initialSlashes p = [47]) := by
  have hs : Py.startsWith [47] p = true := h
  unfold initialSlashes
  rw [if_pos hs]
  have : (Py.startsWith [47, 47] p && !Py.startsWith [47, 47, 47] p) = true ↔ twoSlashes p := by
    unfold twoSlashes Py.startsWith
    rw [Bool.and_eq_true, Bool.not_eq_true', ← Bool.not_eq_true, List.isPrefixOf_iff_prefix, List.isPrefixOf_iff_prefix]
    constructor
    · rintro ⟨⟨r, rfl⟩, h2⟩
      refine ⟨r, rfl, fun hr => h2 ?_⟩
      cases r with
      | nil => simp at hr
      | cons x r =>
        simp only [List.head?_cons, Option.some.injEq] at hr
        subst hr
        exact ⟨r, rfl⟩
    · rintro ⟨r, rfl, h2⟩
      refine ⟨⟨r, rfl⟩, ?_⟩
      rintro ⟨r', hr⟩
      simp only [List.cons_append, List.nil_append, List.cons.injEq, true_and] at hr
      subst hr
      exact h2 rfl
  by_cases ht : twoSlashes p
  · rw [if_pos (this.2 ht)]
    exact ⟨fun _ => rfl, fun h => absurd ht h⟩
  · rw [if_neg (fun h => ht (this.1 h))]
    exact ⟨fun h => absurd h ht, fun _ => rfl⟩

/-- **C65, C73**: which directory is used, for every value of the setting.  A path that begins with a slash is walked
from the root, any other from the directory of the package, and the result is where it leads; it does not matter what
exists on the disk.  (Of the slashes in front exactly two are kept, otherwise one.) -/
theorem C73_path (fs : Fs) (base : List Bytes) (hbase : ∀ c ∈ base, PathName c) (hb : fs.base = fullPath base) (dir : Bytes) :
    (dir.head? = some 47 → ∃ b, Leads [] dir b ∧
      (twoSlashes dir → uploadPath fs dir = 47 :: fullPath b) ∧ (¬ twoSlashes dir → uploadPath fs dir = fullPath b)) ∧
    (dir.head? ≠ some 47 → ∃ b, Leads base dir b ∧ uploadPath fs dir = fullPath b) := by
  have habs : dir.head? = some 47 ↔ isAbs dir = true := by
    unfold isAbs Py.startsWith
    cases dir with
    | nil => simp
    | cons x t =>
      rw [List.isPrefixOf_iff_prefix, List.head?_cons, Option.some.injEq]
      exact ⟨fun h => ⟨t, by rw [h]; rfl⟩, fun ⟨r, hr⟩ => by simp at hr; exact hr.1.symm⟩
  refine ⟨fun h => ?_, fun h => ?_⟩
  · have ha := habs.1 h
    obtain ⟨b, hl⟩ := leads_total [] (by simp) dir
    have e0 : uploadPath fs dir = normpath dir := by
      have hn := normpath_normal dir ha
      have e := C65_dir fs (normpath dir) hn
      unfold uploadPath at e ⊢
      rwa [(normpath_fix hn).1] at e
    have e1 : normLoop true [] (Py.splitChar 47 dir) = b :=
      (normLoop_walk _ _ _ (by simp)).1 ((leads_iff _ _ _).1 hl)
    obtain ⟨names, g1, _, g2⟩ := normpath_rooted dir ha
    rw [e1] at g1
    subst g1
    refine ⟨names, hl, fun ht => ?_, fun ht => ?_⟩
    · rw [e0, g2, (initialSlashes_spec ha).1 ht, ← joinSlash_full]
      rfl
    · rw [e0, g2, (initialSlashes_spec ha).2 ht, joinSlash_full]
  · have ha : isAbs dir = false := by
      cases hc : isAbs dir with
      | false => rfl
      | true => exact absurd (habs.2 hc) h
    obtain ⟨b, hl⟩ := leads_total base (fun c hc => (hbase c hc).2.2.1) dir
    refine ⟨b, hl, ?_⟩
    obtain ⟨hl2, x, t, hx, hx47⟩ := normpath_rel ha hl
    have hw2 := (leads_iff _ _ _).1 hl2
    have hrel : isAbs (normpath dir) = false := by
      rw [hx]; simp [isAbs, Py.startsWith, List.isPrefixOf, Ne.symm hx47]
    unfold uploadPath
    simp only [hrel, Bool.not_false, Bool.true_or, if_true]
    -- the joined path
    have hrel' : Py.startsWith [47] (normpath dir) = false := hrel
    obtain ⟨q, hq, hqabs, hqini, hqw⟩ : ∃ q, pathJoin fs.base (normpath dir) = q ∧ isAbs q = true ∧
        (∀ r, ¬ twoSlashes (q ++ r)) ∧ PathWalk [] (Py.splitChar 47 q) b := by
      refine ⟨_, rfl, ?_⟩
      rw [hb]
      unfold pathJoin
      rw [hrel', if_neg (by simp)]
      cases base with
      | nil =>
        rw [if_pos (.inr (by decide))]
        refine ⟨by simp [fullPath, isAbs, Py.startsWith], ?_, ?_⟩
        · rintro r ⟨r', hr, _⟩
          rw [hx] at hr
          simp [fullPath] at hr
          exact hx47 hr.1
        · show PathWalk [] (Py.splitChar 47 (47 :: normpath dir)) b
          rw [Py.splitChar, if_pos rfl]
          exact .cons (.here _ _ (.inl rfl)) hw2
      | cons n ns =>
        obtain ⟨n1, n2, n3, n4⟩ := hbase n (by simp)
        obtain ⟨y, t', rfl⟩ := List.exists_cons_of_ne_nil n1
        have hy : y ≠ 47 := fun e => n4 (by simp [e])
        have hfull : fullPath ((y :: t') :: ns) = slashed ((y :: t') :: ns) := by simp [fullPath]
        have hend : Py.endsWith [47] (slashed ((y :: t') :: ns)) = false := by
          cases hc : Py.endsWith [47] (slashed ((y :: t') :: ns)) with
          | false => rfl
          | true =>
            exfalso
            obtain ⟨z, hz⟩ := List.isSuffixOf_iff_suffix.1 (show List.isSuffixOf [47] (slashed ((y :: t') :: ns)) = true from hc)
            have e2 := splitChar_append_slash z []
            have e3 : z ++ 47 :: [] = [] ++ slashed ((y :: t') :: ns) := by simpa using hz
            rw [e3, splitChar_slashed [] _ (by
              intro c hc
              rcases List.mem_cons.1 hc with rfl | hc
              · simp
              · exact (hbase c hc).2.2.2)] at e2
            have e4 : ([] : Bytes) ∈ (y :: t') :: ns := by
              have : ([] :: (y :: t') :: ns).getLast? = some ([] : Bytes) := by
                rw [e2]; simp [Py.splitChar]
              rw [List.getLast?_cons_cons] at this
              exact List.mem_of_getLast? this
            exact (hbase _ e4).1 rfl
        rw [hfull, if_neg (by rw [hend]; simp [slashed])]
        refine ⟨by simp [slashed, isAbs, Py.startsWith], ?_, ?_⟩
        · rintro r ⟨r', hr, _⟩
          simp [slashed] at hr
          exact hy hr.1
        · have e2 : slashed ((y :: t') :: ns) ++ [47] ++ normpath dir =
              ([] ++ slashed ((y :: t') :: ns)) ++ 47 :: normpath dir := by simp
          rw [e2, splitChar_append_slash, splitChar_slashed [] _ (by
              intro c hc
              rcases List.mem_cons.1 hc with rfl | hc
              · simp
              · exact (hbase c hc).2.2.2)]
          refine walk_append (b := (y :: t') :: ns) (.cons (.here _ _ (.inl rfl)) ?_) hw2
          have := walk_names (a := []) hbase
          simpa using this
    unfold getAbsPath
    rw [hq]
    -- the empty component at the end
    obtain ⟨q', hq', hqabs', hqini', hqw'⟩ : ∃ q', pathJoin q [] = q' ∧ isAbs q' = true ∧
        ¬ twoSlashes q' ∧ PathWalk [] (Py.splitChar 47 q') b := by
      refine ⟨_, rfl, ?_⟩
      unfold pathJoin
      rw [if_neg (by simp [Py.startsWith])]
      split
      · refine ⟨by simpa using hqabs, hqini [], by simpa using hqw⟩
      · refine ⟨?_, by simpa using hqini [47], ?_⟩
        · obtain ⟨z, rfl⟩ := List.isPrefixOf_iff_prefix.1 (show List.isPrefixOf [47] q = true from hqabs)
          simp [isAbs, Py.startsWith]
        · have e2 : q ++ [47] ++ [] = q ++ 47 :: [] := by simp
          rw [e2, splitChar_append_slash]
          exact walk_append hqw (.cons (.here _ _ (.inl rfl)) (.nil _))
    rw [hq']
    obtain ⟨names, g1, _, g2⟩ := normpath_rooted q' hqabs'
    rw [(normLoop_walk _ _ _ (by simp)).1 (show PathWalk ([] : List Bytes).reverse _ b from hqw')] at g1
    subst g1
    rw [g2, (initialSlashes_spec hqabs').2 hqini', joinSlash_full]

/-- `../data/./x` below `/srv/app` is `/srv/data/x`, an empty setting is the directory of the package, and
`//tmp/../var` is `//var`. -/
example (isdir : Bytes → Bool) : let fs : Fs := ⟨isdir, fun _ => .ok (), fun _ => .ok (), b!"/srv/app"⟩
    uploadPath fs b!"../data/./x" = b!"/srv/data/x" ∧ uploadPath fs [] = b!"/srv/app" ∧
    uploadPath fs b!"//tmp/../var" = b!"//var" := by
  intro fs
  have hb : ∀ c ∈ [b!"srv", b!"app"], PathName c := by unfold PathName; decide
  have h1 : Leads [b!"srv", b!"app"] b!"../data/./x" [b!"srv", b!"data", b!"x"] :=
    ⟨b!"..", [b!"data", b!".", b!"x"], rfl, by decide,
      .cons (.up [b!"srv"] b!"app") (.cons (.into [b!"srv"] _ (by decide) (by decide) (by decide))
        (.cons (.here _ _ (.inr rfl)) (.cons (.into [b!"srv", b!"data"] _ (by decide) (by decide) (by decide)) (.nil _))))⟩
  have h2 : Leads [b!"srv", b!"app"] [] [b!"srv", b!"app"] :=
    ⟨[], [], rfl, by decide, .cons (.here _ _ (.inl rfl)) (.nil _)⟩
  have h3 : Leads [] b!"//tmp/../var" [b!"var"] :=
    ⟨[], [[], b!"tmp", b!"..", b!"var"], rfl, by decide,
      .cons (.here _ _ (.inl rfl)) (.cons (.here _ _ (.inl rfl)) (.cons (.into [] _ (by decide) (by decide) (by decide))
        (.cons (.up [] b!"tmp") (.cons (.into [] _ (by decide) (by decide) (by decide)) (.nil _)))))⟩
  obtain ⟨b1, g1, e1⟩ := (C73_path fs _ hb rfl b!"../data/./x").2 (by decide)
  obtain ⟨b2, g2, e2⟩ := (C73_path fs _ hb rfl []).2 (by decide)
  obtain ⟨b3, g3, e3, _⟩ := (C73_path fs _ hb rfl b!"//tmp/../var").1 (by decide)
  rw [e1, e2, e3 ⟨b!"tmp/../var", rfl, by decide⟩, leads_unique h1 g1, leads_unique h2 g2, leads_unique h3 g3]
  decide +kernel

end Verif
