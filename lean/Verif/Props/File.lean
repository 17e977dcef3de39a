import Verif.Model.File
import Verif.Spec.File
/-!
# Reading uploaded files (C63, C64)
-/

namespace Verif
open Spec

/-! ### C63 -/

theorem takeLine_cases (s : Bytes) (h : s ≠ []) : ∃ b, NoBreak b ∧
    ((b ≠ [] ∧ s = b ∧ takeLine s = (b, [])) ∨
     (∃ r, s = b ++ [10] ++ r ∧ takeLine s = (b ++ [10], r)) ∨
     (∃ r, s = b ++ [13, 10] ++ r ∧ takeLine s = (b ++ [13, 10], r)) ∨
     (∃ r, r.head? ≠ some 10 ∧ s = b ++ [13] ++ r ∧ takeLine s = (b ++ [13], r))) := by
  induction s using takeLine.induct with
  | case1 => exact absurd rfl h
  | case2 t => exact ⟨[], by simp [NoBreak], .inr (.inl ⟨t, rfl, rfl⟩)⟩
  | case3 t => exact ⟨[], by simp [NoBreak], .inr (.inr (.inl ⟨t, rfl, rfl⟩))⟩
  | case4 t hn =>
    refine ⟨[], by simp [NoBreak], .inr (.inr (.inr ⟨t, ?_, rfl, ?_⟩))⟩
    · cases t with
      | nil => simp
      | cons x t =>
        simp only [List.head?_cons, ne_eq, Option.some.injEq]
        rintro rfl
        exact hn t rfl
    · rw [takeLine]
      · simp
      · exact hn
  | case5 c t h10 h1310 h13 ih =>
    have hc10 : c ≠ 10 := by rintro rfl; exact h10 rfl
    have hc13 : c ≠ 13 := by rintro rfl; exact h13 rfl
    have e : takeLine (c :: t) = (c :: (takeLine t).1, (takeLine t).2) := by
      rw [takeLine] <;> assumption
    by_cases ht : t = []
    · subst ht
      exact ⟨[c], by simp [NoBreak, Ne.symm hc10, Ne.symm hc13], .inl ⟨by simp, rfl, by rw [e]; rfl⟩⟩
    · obtain ⟨b, hb, hcase⟩ := ih ht
      refine ⟨c :: b, by simp only [NoBreak, List.mem_cons, not_or] at hb ⊢; exact ⟨⟨Ne.symm hc10, hb.1⟩, Ne.symm hc13, hb.2⟩, ?_⟩
      rcases hcase with ⟨_, h2, h3⟩ | ⟨r, h2, h3⟩ | ⟨r, h2, h3⟩ | ⟨r, h1, h2, h3⟩
      · exact .inl ⟨by simp, by rw [h2], by rw [e, h3]⟩
      · exact .inr (.inl ⟨r, by rw [h2]; rfl, by rw [e, h3]; rfl⟩)
      · exact .inr (.inr (.inl ⟨r, by rw [h2]; rfl, by rw [e, h3]; rfl⟩))
      · exact .inr (.inr (.inr ⟨r, h1, by rw [h2]; rfl, by rw [e, h3]; rfl⟩))

theorem splitLines_lines (s : Bytes) : TextLines s (splitLines s) := by
  suffices ∀ n (s : Bytes), s.length ≤ n → TextLines s (splitLinesLoop n s) from this _ s (Nat.le_refl _)
  intro n
  induction n with
  | zero =>
    intro s hs
    rw [List.eq_nil_of_length_eq_zero (Nat.le_zero.1 hs)]
    exact .nil
  | succ n ih =>
    intro s hs
    cases hs' : s with
    | nil => exact .nil
    | cons c t =>
      rw [← hs']
      have hne : s ≠ [] := by rw [hs']; simp
      have e : splitLinesLoop (n + 1) s = (takeLine s).1 :: splitLinesLoop n (takeLine s).2 := by
        rw [hs']; rfl
      rw [e]
      obtain ⟨b, hb, ⟨h1, h2, h3⟩ | ⟨r, h2, h3⟩ | ⟨r, h2, h3⟩ | ⟨r, h1, h2, h3⟩⟩ := takeLine_cases s hne
      · rw [h3, h2]
        have : splitLinesLoop n [] = [] := by cases n <;> rfl
        simp only [this]
        exact .last h1 hb
      · rw [h3, h2]
        exact .lf hb (ih r (by rw [h2] at hs; simp at hs; omega))
      · rw [h3, h2]
        exact .crlf hb (ih r (by rw [h2] at hs; simp at hs; omega))
      · rw [h3, h2]
        exact .cr hb h1 (ih r (by rw [h2] at hs; simp at hs; omega))

/-- A buffered, unfinished line. -/
def Open (b : Bytes) : Prop := (b ≠ [] ∧ NoBreak b) ∨ ∃ c, NoBreak c ∧ b = c ++ [13]

/-- The lines yielded so far and the buffer, after the text `t`. -/
structure IterInv (t : Bytes) (out : List Bytes) (buf : Option Bytes) : Prop where
  opened : ∀ b, buf = some b → Open b
  cont : ∀ r ls, TextLines (buf.getD [] ++ r) ls → TextLines (t ++ r) (out ++ ls)

theorem Spec.NoBreak.append {a b : Bytes} (ha : NoBreak a) (hb : NoBreak b) : NoBreak (a ++ b) := by
  unfold NoBreak at *
  simp only [List.mem_append, not_or]
  exact ⟨⟨ha.1, hb.1⟩, ha.2, hb.2⟩

theorem endsLf_noBreak {b : Bytes} (h : NoBreak b) : endsLf b = false := by
  unfold endsLf
  rw [decide_eq_false_iff_not]
  intro hl
  exact h.1 (List.mem_of_getLast? hl)

theorem endsCr_noBreak {b : Bytes} (h : NoBreak b) : endsCr b = false := by
  unfold endsCr
  rw [decide_eq_false_iff_not]
  intro hl
  exact h.2 (List.mem_of_getLast? hl)

theorem head_noBreak {b : Bytes} (hb : NoBreak b) (hne : b ≠ []) (r : Bytes) : (b ++ r).head? ≠ some 10 := by
  cases b with
  | nil => exact absurd rfl hne
  | cons x t =>
    simp only [List.cons_append, List.head?_cons, ne_eq, Option.some.injEq]
    rintro rfl
    exact hb.1 (by simp)

/-- One line of a chunk. -/
theorem iterStep_inv {t : Bytes} {out : List Bytes} {buf : Option Bytes} (h : IterInv t out buf)
    {b e : Bytes} (hb : NoBreak b) (he : e = [10] ∨ e = [13, 10] ∨ e = [13] ∨ (e = [] ∧ b ≠ [])) :
    IterInv (t ++ (b ++ e)) (out ++ (iterStep buf (b ++ e)).1) (iterStep buf (b ++ e)).2 := by
  have hlf : e = [10] ∨ e = [13, 10] → ∀ x : Bytes, endsLf (x ++ e) = true := by
    rintro (rfl | rfl) x <;> simp [endsLf]
  have hnl : e = [13] ∨ e = [] → ∀ x : Bytes, NoBreak x → endsLf (x ++ e) = false := by
    rintro (rfl | rfl) x hx
    · simp [endsLf]
    · rw [List.append_nil]; exact endsLf_noBreak hx
  -- a whole line, with the text before it, is yielded
  have yield : ∀ (x : Bytes) r ls, NoBreak x → e = [10] ∨ e = [13, 10] → TextLines r ls →
      TextLines (x ++ e ++ r) ((x ++ e) :: ls) := by
    rintro x r ls hx (rfl | rfl) hr
    · exact .lf hx hr
    · exact .crlf hx hr
  have opn : ∀ x : Bytes, NoBreak x → (e = [13] ∨ (e = [] ∧ x ≠ [])) → Open (x ++ e) := by
    rintro x hx (rfl | ⟨rfl, hne⟩)
    · exact .inr ⟨x, hx, rfl⟩
    · rw [List.append_nil]; exact .inl ⟨hne, hx⟩
  -- the line joined to `x`
  have joined : ∀ x : Bytes, NoBreak x → (buf.getD [] = x) →
      IterInv (t ++ (b ++ e)) (out ++ (if endsLf (x ++ (b ++ e)) then ([x ++ (b ++ e)], none)
        else ([], some (x ++ (b ++ e)))).1)
        (if endsLf (x ++ (b ++ e)) then (([x ++ (b ++ e)] : List Bytes), (none : Option Bytes))
        else ([], some (x ++ (b ++ e)))).2 := by
    intro x hx hbuf
    have hxb := hx.append hb
    by_cases hlast : e = [10] ∨ e = [13, 10]
    · rw [← List.append_assoc x b e, if_pos (hlf hlast _)]
      refine ⟨fun _ h => (by cases h), fun r ls hr => ?_⟩
      have := h.cont (b ++ e ++ r) ((x ++ b ++ e) :: ls) (by
        rw [hbuf]
        have := yield (x ++ b) r ls hxb hlast hr
        simpa using this)
      simpa using this
    · have he' : e = [13] ∨ e = [] := by
        rcases he with rfl | rfl | rfl | ⟨rfl, _⟩
        · exact absurd (.inl rfl) hlast
        · exact absurd (.inr rfl) hlast
        · exact .inl rfl
        · exact .inr rfl
      rw [← List.append_assoc x b e, if_neg (by rw [hnl he' _ hxb]; simp)]
      refine ⟨fun y hy => ?_, fun r ls hr => ?_⟩
      · cases hy
        apply opn _ hxb
        rcases he with rfl | rfl | rfl | ⟨rfl, hne⟩
        · simp at he'
        · simp at he'
        · exact .inl rfl
        · exact .inr ⟨rfl, by simp [hne]⟩
      · have := h.cont (b ++ e ++ r) ls (by rw [hbuf]; simpa using hr)
        simpa using this
  cases hbuf : buf with
  | none =>
    have := joined [] (by simp [NoBreak]) (by rw [hbuf]; rfl)
    rw [List.nil_append] at this
    unfold iterStep
    simp only [List.nil_append]
    split <;> rename_i hc
    · rw [if_pos hc] at this; exact this
    · rw [if_neg hc] at this; exact this
  | some x =>
    rcases h.opened x hbuf with ⟨hne, hx⟩ | ⟨y, hy, rfl⟩
    · have := joined x hx (by rw [hbuf]; rfl)
      unfold iterStep
      simp only [if_neg hne, endsCr_noBreak hx, Bool.false_and, Bool.false_eq_true, if_false,
        List.nil_append]
      split <;> rename_i hc
      · rw [if_pos hc] at this; exact this
      · rw [if_neg hc] at this; exact this
    · have hcr : endsCr (y ++ [13]) = true := by simp [endsCr]
      have hyne : y ++ [13] ≠ [] := by simp
      by_cases hl : b ++ e = [10]
      · -- the line feed of CR LF at the start of a chunk
        have hj : endsLf (y ++ [13] ++ [10]) = true := by simp [endsLf]
        unfold iterStep
        rw [hl]
        simp only [if_neg hyne, hcr, Bool.true_and, decide_true, Bool.not_true, Bool.false_eq_true,
          if_false, hj, if_true, List.nil_append]
        refine ⟨fun _ h => (by cases h), fun r ls hr => ?_⟩
        have := h.cont ([10] ++ r) ((y ++ [13, 10]) :: ls) (by
          rw [hbuf]
          have := TextLines.crlf hy hr
          simpa using this)
        simpa using this
      · have hhead : ∀ r : Bytes, (b ++ e ++ r).head? ≠ some 10 := by
          intro r
          by_cases hbne : b = []
          · subst hbne
            rcases he with rfl | rfl | rfl | ⟨rfl, hne⟩
            · exact absurd rfl hl
            · simp
            · simp
            · exact absurd rfl hne
          · rw [List.append_assoc]; exact head_noBreak hb hbne _
        have crcons : ∀ r ls, TextLines (b ++ e ++ r) ls →
            TextLines (t ++ (b ++ e) ++ r) (out ++ ((y ++ [13]) :: ls)) := by
          intro r ls hr
          have := h.cont (b ++ e ++ r) ((y ++ [13]) :: ls) (by
            rw [hbuf]
            exact .cr hy (hhead r) hr)
          simpa using this
        unfold iterStep
        simp only [if_neg hyne, hcr, Bool.true_and, decide_eq_false hl, Bool.not_false, if_true]
        by_cases hlast : e = [10] ∨ e = [13, 10]
        · rw [if_pos (hlf hlast b)]
          refine ⟨fun _ h => (by cases h), fun r ls hr => ?_⟩
          have := crcons r ((b ++ e) :: ls) (yield b r ls hb hlast hr)
          simpa using this
        · have he' : e = [13] ∨ (e = [] ∧ b ≠ []) := by
            rcases he with rfl | rfl | rfl | hh
            · exact absurd (.inl rfl) hlast
            · exact absurd (.inr rfl) hlast
            · exact .inl rfl
            · exact .inr hh
          rw [if_neg (by rw [hnl (he'.imp_right And.left) b hb]; simp)]
          refine ⟨fun z hz => ?_, fun r ls hr => ?_⟩
          · cases hz; exact opn b hb he'
          · have := crcons r ls hr
            simpa using this

theorem iterLoop_append (buf : Option Bytes) (a c : List Bytes) :
    iterLoop buf (a ++ c) = ((iterLoop buf a).1 ++ (iterLoop (iterLoop buf a).2 c).1,
      (iterLoop (iterLoop buf a).2 c).2) := by
  induction a generalizing buf with
  | nil => simp [iterLoop]
  | cons x t ih => simp [iterLoop, ih]

/-- One chunk. -/
theorem iterLoop_chunk {c : Bytes} {ls : List Bytes} (hl : TextLines c ls) :
    ∀ {t : Bytes} {out : List Bytes} {buf : Option Bytes}, IterInv t out buf →
    IterInv (t ++ c) (out ++ (iterLoop buf ls).1) (iterLoop buf ls).2 := by
  have go : ∀ {b e r : Bytes} {ls : List Bytes},
      (∀ {t : Bytes} {out : List Bytes} {buf : Option Bytes}, IterInv t out buf →
        IterInv (t ++ r) (out ++ (iterLoop buf ls).1) (iterLoop buf ls).2) →
      NoBreak b → (e = [10] ∨ e = [13, 10] ∨ e = [13] ∨ (e = [] ∧ b ≠ [])) →
      ∀ {t : Bytes} {out : List Bytes} {buf : Option Bytes}, IterInv t out buf →
        IterInv (t ++ (b ++ e ++ r)) (out ++ (iterLoop buf ((b ++ e) :: ls)).1)
          (iterLoop buf ((b ++ e) :: ls)).2 := by
    intro b e r ls ih hb he t out buf h
    have := ih (iterStep_inv h hb he)
    simpa [iterLoop] using this
  induction hl with
  | nil => intro t out buf h; simpa [iterLoop] using h
  | last hne hb =>
    intro t out buf h
    rename_i b
    have := go (r := []) (ls := []) (b := b) (e := []) (by
      intro t out buf h; simpa [iterLoop] using h) hb (.inr (.inr (.inr ⟨rfl, hne⟩))) h
    simpa using this
  | lf hb _ ih => intro t out buf h; exact go ih hb (.inl rfl) h
  | crlf hb _ ih => intro t out buf h; exact go ih hb (.inr (.inl rfl)) h
  | cr hb _ _ ih => intro t out buf h; exact go ih hb (.inr (.inr (.inl rfl))) h

theorem iterLoop_all (chunks : List Bytes) : ∀ {t : Bytes} {out : List Bytes} {buf : Option Bytes},
    IterInv t out buf → IterInv (t ++ chunks.flatten) (out ++ (iterLoop buf (chunks.flatMap splitLines)).1)
      (iterLoop buf (chunks.flatMap splitLines)).2 := by
  induction chunks with
  | nil => intro t out buf h; simpa [iterLoop] using h
  | cons c cs ih =>
    intro t out buf h
    have := ih (iterLoop_chunk (splitLines_lines c) h)
    rw [List.flatMap_cons, iterLoop_append, List.flatten_cons]
    simpa using this

/-- **C63**.  Whatever the chunks, the iteration yields the lines of their concatenation. -/
theorem C63_lines (chunks : List Bytes) : TextLines chunks.flatten (iterLines chunks) := by
  have h := iterLoop_all chunks (t := []) (out := []) (buf := none)
    ⟨fun _ h => (by cases h), fun r ls hr => (by simpa using hr)⟩
  unfold iterLines
  simp only [List.nil_append] at h ⊢
  generalize iterLoop none (chunks.flatMap splitLines) = p at h
  obtain ⟨out, buf⟩ := p
  cases buf with
  | none => have := h.cont [] [] .nil; simpa using this
  | some b =>
    have : TextLines b [b] := by
      rcases h.opened b rfl with ⟨h1, h2⟩ | ⟨c, h1, rfl⟩
      · exact .last h1 h2
      · have := TextLines.cr h1 (r := []) (by simp) .nil
        simpa using this
    have := h.cont [] [b] (by simpa using this)
    simpa using this

theorem Spec.TextLines.flatten {s : Bytes} {ls : List Bytes} (h : TextLines s ls) : ls.flatten = s := by
  induction h with
  | nil => rfl
  | last => simp
  | lf _ _ ih => simp [ih]
  | crlf _ _ ih => simp [ih]
  | cr _ _ _ ih => simp [ih]

/-- Texts up to the first line end. -/
theorem break_unique : ∀ {a b x y : Bytes}, NoBreak a → NoBreak b →
    (∀ c, x.head? = some c → c = 10 ∨ c = 13) → (∀ c, y.head? = some c → c = 10 ∨ c = 13) →
    a ++ x = b ++ y → a = b ∧ x = y := by
  intro a
  induction a with
  | nil =>
    intro b x y _ hb hx _ e
    cases b with
    | nil => exact ⟨rfl, e⟩
    | cons c t =>
      rw [List.nil_append] at e
      rcases hx c (by rw [e]; rfl) with rfl | rfl
      · exact absurd (by simp) hb.1
      · exact absurd (by simp) hb.2
  | cons c t ih =>
    intro b x y ha hb hx hy e
    cases b with
    | nil =>
      rw [List.nil_append] at e
      rcases hy c (by rw [← e]; rfl) with rfl | rfl
      · exact absurd (by simp) ha.1
      · exact absurd (by simp) ha.2
    | cons d u =>
      simp only [List.cons_append, List.cons.injEq] at e
      obtain ⟨h1, h2⟩ := ih (b := u) ⟨fun h => ha.1 (by simp [h]), fun h => ha.2 (by simp [h])⟩
        ⟨fun h => hb.1 (by simp [h]), fun h => hb.2 (by simp [h])⟩ hx hy e.2
      exact ⟨by rw [e.1, h1], h2⟩

/-- A text has only one list of lines. -/
theorem C63_unique {s : Bytes} {l1 l2 : List Bytes} (h1 : TextLines s l1) (h2 : TextLines s l2) : l1 = l2 := by
  have hh : ∀ (e r : Bytes), e = [10] ∨ e = [13, 10] ∨ e = [13] →
      ∀ c, (e ++ r).head? = some c → c = 10 ∨ c = 13 := by
    rintro e r (rfl | rfl | rfl) c hc <;> simp at hc <;> simp [← hc]
  induction h1 generalizing l2 with
  | nil =>
    generalize hs : ([] : Bytes) = s at h2
    cases h2 with
    | nil => rfl
    | last h _ => exact absurd hs.symm h
    | lf _ _ => simp at hs
    | crlf _ _ => simp at hs
    | cr _ _ _ => simp at hs
  | last hne hb =>
    rename_i b
    have no : ∀ {c e r : Bytes}, NoBreak c → e = [10] ∨ e = [13, 10] ∨ e = [13] → b ≠ c ++ e ++ r := by
      intro c e r hc he h
      obtain ⟨_, h2⟩ := break_unique (x := []) hb hc (by simp) (hh e r he) (by simpa using h)
      rcases he with rfl | rfl | rfl <;> simp at h2
    generalize hs : b = s at h2
    cases h2 with
    | nil => exact absurd hs hne
    | last _ _ => rfl
    | lf hc _ => exact absurd hs (no hc (.inl rfl))
    | crlf hc _ => exact absurd hs (no hc (.inr (.inl rfl)))
    | cr hc _ _ => exact absurd hs (no hc (.inr (.inr rfl)))
  | lf hb hr ih =>
    rename_i b r ls
    generalize hs : b ++ [10] ++ r = s at h2
    rw [List.append_assoc] at hs
    cases h2 with
    | nil => simp at hs
    | last hne hc =>
      obtain ⟨_, h⟩ := break_unique hb hc (hh _ r (.inl rfl)) (y := []) (by simp) (by simpa using hs)
      simp at h
    | lf hc hr' =>
      obtain ⟨rfl, h⟩ := break_unique hb hc (hh _ r (.inl rfl)) (hh _ _ (.inl rfl)) (by simpa using hs)
      simp only [List.singleton_append, List.cons.injEq, true_and] at h
      subst h
      rw [ih hr']
    | crlf hc hr' =>
      obtain ⟨rfl, h⟩ := break_unique hb hc (hh _ r (.inl rfl)) (hh _ _ (.inr (.inl rfl))) (by simpa using hs)
      simp at h
    | cr hc _ hr' =>
      obtain ⟨rfl, h⟩ := break_unique hb hc (hh _ r (.inl rfl)) (hh _ _ (.inr (.inr rfl))) (by simpa using hs)
      simp at h
  | crlf hb hr ih =>
    rename_i b r ls
    generalize hs : b ++ [13, 10] ++ r = s at h2
    rw [List.append_assoc] at hs
    cases h2 with
    | nil => simp at hs
    | last hne hc =>
      obtain ⟨_, h⟩ := break_unique hb hc (hh _ r (.inr (.inl rfl))) (y := []) (by simp) (by simpa using hs)
      simp at h
    | lf hc hr' =>
      obtain ⟨rfl, h⟩ := break_unique hb hc (hh _ r (.inr (.inl rfl))) (hh _ _ (.inl rfl)) (by simpa using hs)
      simp at h
    | crlf hc hr' =>
      obtain ⟨rfl, h⟩ := break_unique hb hc (hh _ r (.inr (.inl rfl))) (hh _ _ (.inr (.inl rfl)))
        (by simpa using hs)
      have h := List.append_cancel_left h
      subst h
      rw [ih hr']
    | cr hc hd hr' =>
      obtain ⟨rfl, h⟩ := break_unique hb hc (hh _ r (.inr (.inl rfl))) (hh _ _ (.inr (.inr rfl)))
        (by simpa using hs)
      simp only [List.cons_append, List.nil_append, List.cons.injEq, true_and] at h
      rw [← h] at hd
      simp at hd
  | cr hb hd hr ih =>
    rename_i b r ls
    generalize hs : b ++ [13] ++ r = s at h2
    rw [List.append_assoc] at hs
    cases h2 with
    | nil => simp at hs
    | last hne hc =>
      obtain ⟨_, h⟩ := break_unique hb hc (hh _ r (.inr (.inr rfl))) (y := []) (by simp) (by simpa using hs)
      simp at h
    | lf hc hr' =>
      obtain ⟨rfl, h⟩ := break_unique hb hc (hh _ r (.inr (.inr rfl))) (hh _ _ (.inl rfl)) (by simpa using hs)
      simp at h
    | crlf hc hr' =>
      obtain ⟨rfl, h⟩ := break_unique hb hc (hh _ r (.inr (.inr rfl))) (hh _ _ (.inr (.inl rfl)))
        (by simpa using hs)
      simp only [List.cons_append, List.nil_append, List.cons.injEq, true_and] at h
      rw [h] at hd
      simp at hd
    | cr hc _ hr' =>
      obtain ⟨rfl, h⟩ := break_unique hb hc (hh _ r (.inr (.inr rfl))) (hh _ _ (.inr (.inr rfl)))
        (by simpa using hs)
      have h := List.append_cancel_left h
      subst h
      rw [ih hr']

/-- **C63**, in the words of the property: the result is `content.splitlines(True)` for every way to cut
the content into chunks, and the lines concatenate to the content. -/
theorem C63_chunking (chunks : List Bytes) :
    iterLines chunks = splitLines chunks.flatten ∧ (iterLines chunks).flatten = chunks.flatten :=
  ⟨C63_unique (C63_lines chunks) (splitLines_lines _), (C63_lines chunks).flatten⟩

example : iterLines [b!"a\r", b!"\nb\rc", b!"d\n\n", [], b!"\r", b!"\r", b!"e"] =
    [b!"a\r\n", b!"b\r", b!"cd\n", b!"\n", b!"\r", b!"\r", b!"e"] := by decide +kernel

/-! ### C64 -/

theorem chunksLoop_spec (size : Int) (hs : size ≠ 0) (fuel : Nat) : ∀ f : PyFile,
    (f.content.drop f.pos).length < fuel →
    (chunksLoop fuel size f).1.flatten = f.content.drop f.pos ∧
    (∀ c ∈ (chunksLoop fuel size f).1, c ≠ []) ∧
    (0 < size → ∀ c ∈ (chunksLoop fuel size f).1, c.length ≤ size) ∧
    (0 < size → ∀ c ∈ (chunksLoop fuel size f).1.dropLast, (c.length : Int) = size) ∧
    (size < 0 → (chunksLoop fuel size f).1.length ≤ 1) ∧
    (f.pos ≤ f.content.length → (chunksLoop fuel size f).2 = { f with pos := f.content.length }) := by
  induction fuel with
  | zero => intro f h; omega
  | succ fuel ih =>
    intro f hf
    unfold chunksLoop
    simp only
    have hrd : f.read size = ((f.read size).1, { f with pos := f.pos + (f.read size).1.length }) := rfl
    by_cases hd : (f.read size).1 = []
    · rw [if_pos hd]
      have hrest : f.content.drop f.pos = [] := by
        unfold PyFile.read at hd
        simp only at hd
        split at hd
        · exact hd
        · rw [List.take_eq_nil_iff] at hd
          rcases hd with hd | hd
          · omega
          · exact hd
      refine ⟨hrest.symm, by simp, by simp, by simp, by simp, fun hp => ?_⟩
      rw [hrd, hd]
      have : f.content.length ≤ f.pos := by simpa using hrest
      have : f.pos = f.content.length := by omega
      simp [this]
    · rw [if_neg hd]
      have hdrop : (f.read size).2.content.drop (f.read size).2.pos =
          (f.content.drop f.pos).drop (f.read size).1.length := by
        rw [hrd]; simp [List.drop_drop]
      have hpre : (f.read size).1 = (f.content.drop f.pos).take (f.read size).1.length := by
        unfold PyFile.read
        simp only
        split
        · rw [List.take_length]
        · rw [List.length_take, List.take_eq_take_iff, Nat.min_assoc, Nat.min_self]
      have hpos : 0 < (f.read size).1.length := List.length_pos_iff.2 hd
      have hle : (f.read size).1.length ≤ (f.content.drop f.pos).length := by
        rw [hpre, List.length_take]; exact Nat.min_le_right _ _
      obtain ⟨i1, i2, i3, i4, i5, i6⟩ := ih (f.read size).2 (by rw [hdrop, List.length_drop]; omega)
      refine ⟨?_, ?_, ?_, ?_, ?_, ?_⟩
      · rw [List.flatten_cons, i1, hdrop]
        conv => lhs; lhs; rw [hpre]
        rw [List.take_append_drop]
      · intro c hc
        rcases List.mem_cons.1 hc with rfl | hc
        · exact hd
        · exact i2 c hc
      · intro h0 c hc
        rcases List.mem_cons.1 hc with rfl | hc
        · unfold PyFile.read
          simp only
          rw [if_neg (by omega), List.length_take]
          omega
        · exact i3 h0 c hc
      · intro h0 c hc
        cases hrest : (chunksLoop fuel size (f.read size).2).1 with
        | nil => rw [hrest] at hc; simp at hc
        | cons x xs =>
          rw [hrest] at hc i4
          simp only [List.dropLast_cons₂] at hc
          rcases List.mem_cons.1 hc with rfl | hc
          · -- something is left, so this piece is full
            have hne : x ≠ [] := i2 x (by rw [hrest]; simp)
            rw [hrest, hdrop] at i1
            have hlt : (f.read size).1.length < (f.content.drop f.pos).length := by
              apply Classical.byContradiction
              intro hge
              rw [List.drop_eq_nil_of_le (by omega)] at i1
              simp at i1
              exact hne i1.1
            unfold PyFile.read at hlt ⊢
            simp only at hlt ⊢
            rw [if_neg (by omega), List.length_take] at hlt ⊢
            omega
          · exact i4 h0 c hc
      · intro h0
        have : (f.read size).1 = f.content.drop f.pos := by
          unfold PyFile.read; simp [h0]
        have hnil : (chunksLoop fuel size (f.read size).2).1 = [] := by
          rw [hdrop, this, List.drop_length] at i1
          cases hrest : (chunksLoop fuel size (f.read size).2).1 with
          | nil => rfl
          | cons x xs =>
            rw [hrest] at i1
            simp at i1
            exact absurd i1.1 (i2 x (by rw [hrest]; simp))
        rw [hnil]; simp
      · intro hp
        have e := i6 (by
          have : (f.read size).2.pos = f.pos + (f.read size).1.length := rfl
          have hc : (f.read size).2.content = f.content := rfl
          rw [this, hc]
          rw [List.length_drop] at hle
          omega)
        rw [e]
        rfl

/-- The pieces `chunks(n)` promises: not empty, of exactly `size` bytes but for the last, which is not
longer, and together the text. -/
structure Pieces (size : Nat) (text : Bytes) (pieces : List Bytes) : Prop where
  whole : pieces.flatten = text
  nonempty : ∀ c ∈ pieces, c ≠ []
  full : ∀ c ∈ pieces.dropLast, c.length = size
  atMost : ∀ c ∈ pieces, c.length ≤ size

/-- **C64**.  On a file that can seek, `chunks(n)` covers the whole content from offset 0, wherever the
position was; `None` and 0 mean 64 KiB. -/
theorem C64_chunks (f : PyFile) (hseek : f.seek = .works) (n : Option Int) (size : Nat)
    (hn : (size : Int) = chunkSizeOr n) (hpos : 0 < size) :
    ∃ pieces, fileChunks f n = .ok (pieces, { f with pos := f.content.length }) ∧
      Pieces size f.content pieces := by
  obtain ⟨content, pos, sk⟩ := f
  cases hseek
  unfold fileChunks
  simp only [← hn]
  obtain ⟨h1, h2, h3, h4, _, h6⟩ := chunksLoop_spec size (by omega) (content.length + 1)
    { content := content, pos := 0, seek := .works } (by simp)
  refine ⟨_, by rw [← h6 (by simp)], by simpa using h1, h2, fun c hc => ?_, fun c hc => ?_⟩
  · have := h4 (by omega) c hc; omega
  · have := h3 (by omega) c hc; omega

/-- A file that cannot seek is read from where it is. -/
theorem C64_unseekable (f : PyFile) (hseek : f.seek = .missing ∨ f.seek = .unsupported) (n : Option Int) (size : Nat)
    (hn : (size : Int) = chunkSizeOr n) (hpos : 0 < size) :
    ∃ pieces f', fileChunks f n = .ok (pieces, f') ∧ Pieces size (f.content.drop f.pos) pieces := by
  unfold fileChunks
  simp only [← hn]
  obtain ⟨h1, h2, h3, h4, _, _⟩ := chunksLoop_spec size (by omega) (f.content.length + 1) f
    (by rw [List.length_drop]; omega)
  refine ⟨_, (chunksLoop (f.content.length + 1) size f).2, by rcases hseek with h | h <;> simp only [h], h1, h2, fun c hc => ?_, fun c hc => ?_⟩
  · have := h4 (by omega) c hc; omega
  · have := h3 (by omega) c hc; omega

/-- A negative chunk size: one piece with everything (none for an empty file). -/
theorem C64_negative (f : PyFile) (hseek : f.seek = .works) (n : Int) (hn : n < 0) :
    ∃ pieces f', fileChunks f (some n) = .ok (pieces, f') ∧ pieces.flatten = f.content ∧ pieces.length ≤ 1 := by
  obtain ⟨content, pos, sk⟩ := f
  cases hseek
  unfold fileChunks
  have e : chunkSizeOr (some n) = n := by simp only [chunkSizeOr]; rw [if_neg (by omega)]
  simp only [e]
  obtain ⟨h1, _, _, _, h5, _⟩ := chunksLoop_spec n (by omega) (content.length + 1)
    { content := content, pos := 0, seek := .works } (by simp)
  exact ⟨(chunksLoop (content.length + 1) n { content := content, pos := 0, seek := .works }).1,
    (chunksLoop (content.length + 1) n { content := content, pos := 0, seek := .works }).2, rfl,
    by simpa using h1, h5 hn⟩

/-- An `InMemoryUploadedFile` gives everything in one piece. -/
theorem C64_memory (f : PyFile) : (memoryChunks f).1 = [f.content] := by
  simp [memoryChunks, PyFile.read]

/-- **C63** for files: the lines of the content, for files on disk and in memory. -/
theorem C63_files (f : PyFile) (hseek : f.seek = .works) :
    (∃ f', fileIter f = .ok (splitLines f.content, f')) ∧ (memoryIter f).1 = splitLines f.content := by
  constructor
  · obtain ⟨pieces, h1, h2⟩ := C64_chunks f hseek none 65536 (by rfl) (by omega)
    refine ⟨{ f with pos := f.content.length }, ?_⟩
    unfold fileIter
    rw [h1]
    simp only
    rw [(C63_chunking pieces).1, h2.whole]
  · unfold memoryIter
    simp only
    rw [C64_memory, (C63_chunking [f.content]).1]
    simp

example : (fileChunks ⟨b!"abcdefgh", 5, .works⟩ (some 3)).toOption.map Prod.fst =
    some [b!"abc", b!"def", b!"gh"] := by decide +kernel

end Verif
