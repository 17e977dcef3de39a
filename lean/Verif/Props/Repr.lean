import Verif.Model.Repr
import Mathlib.Data.List.Perm.Subperm
import Verif.Props.ListText
/-!
# The representation of dictionaries (C148)
-/

namespace Verif

namespace Spec

/-- The characters of a string are code points. -/
def CodePoints : PyStr → Prop
  | .b _ => True
  | .u s => ∀ c ∈ s, c < 0x110000

/-- A value that is no list, in code points. -/
def FlatValue : Val PyStr → Prop
  | .none => True
  | .atom a => CodePoints a
  | .list _ => False

/-- The keys of the dictionary are strings, its values lists of strings and `None`. -/
def FlatDict (m : Mem PyStr PyStr) (i : Nat) : Prop :=
  ∀ p ∈ m.dict i, CodePoints p.1 ∧ ∀ v ∈ m.elems p.2, FlatValue v

end Spec

open Spec

/-! ## One character -/

private def tokLen : Bytes → Nat
  | 92 :: d :: _ => if d = 120 then 4 else if d = 117 then 6 else if d = 85 then 10 else 2
  | _ => 1

private def hv (d : UInt8) : Nat := if d < 58 then d.toNat - 48 else d.toNat - 87

private def tokVal : Bytes → Nat
  | [92, 120, a, b] => hv a * 16 + hv b
  | [92, 117, a, b, c, d] => ((hv a * 16 + hv b) * 16 + hv c) * 16 + hv d
  | [92, 85, a, b, c, d, e, f, g, h] =>
    ((((((hv a * 16 + hv b) * 16 + hv c) * 16 + hv d) * 16 + hv e) * 16 + hv f) * 16 + hv g) * 16 + hv h
  | [92, d] => if d = 116 then 9 else if d = 110 then 10 else if d = 114 then 13 else d.toNat
  | [d] => d.toNat
  | _ => 0

private theorem hv_hex (n : Nat) : hv (hexLow (n % 16)) = n % 16 := by
  have h : ∀ k < 16, hv (hexLow k) = k := by decide
  exact h _ (Nat.mod_lt _ (by decide))

private theorem reprByte_facts {q : UInt8} (hq : q = 34 ∨ q = 39) (c : UInt8) :
    tokVal (reprByte q c) = c.toNat ∧ tokLen (reprByte q c) = (reprByte q c).length ∧
      (reprByte q c = [c] ∧ c ≠ 92 ∧ c ≠ q ∨ (∃ d t, reprByte q c = 92 :: d :: t)) ∧
      ∀ x ∈ reprByte q c, 32 ≤ x ∧ x < 127 := by
  have cls : reprByte q c = [c] ∧ c ≠ 92 ∧ c ≠ q ∨ (∃ d t, reprByte q c = 92 :: d :: t) := by
    unfold reprByte
    split
    · exact .inr ⟨_, _, rfl⟩
    rename_i h
    simp only [not_or] at h
    repeat (split; exact .inr ⟨_, _, rfl⟩)
    exact .inl ⟨rfl, h.2, h.1⟩
  rcases hq with rfl | rfl
  · have := forall_u8 (fun c => decide (tokVal (reprByte 34 c) = c.toNat ∧ tokLen (reprByte 34 c) = (reprByte 34 c).length ∧
      ∀ x ∈ reprByte 34 c, 32 ≤ x ∧ x < 127)) (by decide +kernel) c
    simp only [decide_eq_true_eq] at this
    exact ⟨this.1, this.2.1, cls, this.2.2⟩
  · have := forall_u8 (fun c => decide (tokVal (reprByte 39 c) = c.toNat ∧ tokLen (reprByte 39 c) = (reprByte 39 c).length ∧
      ∀ x ∈ reprByte 39 c, 32 ≤ x ∧ x < 127)) (by decide +kernel) c
    simp only [decide_eq_true_eq] at this
    exact ⟨this.1, this.2.1, cls, this.2.2⟩

private theorem reprPoint_small {q : UInt8} {c : Nat} (h : c < 256) : reprPoint q c = reprByte q (UInt8.ofNat c) := by
  unfold reprPoint
  rw [if_neg (by omega), if_neg (by omega)]

private theorem reprPoint_val {q : UInt8} (hq : q = 34 ∨ q = 39) (c : Nat) (hc : c < 2 ^ 32) :
    tokVal (reprPoint q c) = c := by
  by_cases h : c < 256
  · rw [reprPoint_small h, (reprByte_facts hq _).1]
    simp only [UInt8.toNat_ofNat']
    omega
  unfold reprPoint
  split
  · simp only [List.map_cons, List.map_nil, List.cons_append, List.nil_append, tokVal, hv_hex]
    omega
  · rw [if_pos (by omega)]
    simp only [List.map_cons, List.map_nil, List.cons_append, List.nil_append, tokVal, hv_hex]
    omega

private theorem reprPoint_len {q : UInt8} (hq : q = 34 ∨ q = 39) (c : Nat) (x : Bytes) :
    tokLen (reprPoint q c ++ x) = (reprPoint q c).length := by
  unfold reprPoint
  split
  · rfl
  split
  · rfl
  obtain ⟨-, h, h3, -⟩ := reprByte_facts hq (UInt8.ofNat c)
  rcases h3 with ⟨h3, h4, -⟩ | ⟨d, t, h3⟩
  · rw [h3]
    show tokLen (UInt8.ofNat c :: x) = 1
    unfold tokLen
    split
    · rename_i h5
      simp only [List.cons.injEq] at h5
      exact absurd h5.1 h4
    · rfl
  · rw [h3] at h ⊢
    exact h

private theorem reprPoint_head {q : UInt8} (hq : q = 34 ∨ q = 39) (c : Nat) :
    ∃ d t, reprPoint q c = d :: t ∧ d ≠ q := by
  have h92 : (92 : UInt8) ≠ q := by rcases hq with rfl | rfl <;> decide
  unfold reprPoint
  split
  · exact ⟨_, _, rfl, h92⟩
  split
  · exact ⟨_, _, rfl, h92⟩
  obtain ⟨-, -, h3, -⟩ := reprByte_facts hq (UInt8.ofNat c)
  rcases h3 with ⟨h3, -, h4⟩ | ⟨d, t, h3⟩
  · exact ⟨_, _, h3, h4⟩
  · exact ⟨_, _, h3, h92⟩

/-! ## Texts from which what was written can be read again -/

/-- Among the `a` with `P a`, the text of `a` can be told apart whatever follows it. -/
private def Told {α : Type} (P : α → Prop) (enc : α → Bytes) : Prop :=
  ∀ a b x y, P a → P b → enc a ++ x = enc b ++ y → a = b ∧ x = y

private theorem point_told {q : UInt8} (hq : q = 34 ∨ q = 39) : Told (· < 0x110000) (reprPoint q) := by
  intro a b x y ha hb h
  have hl : (reprPoint q a).length = (reprPoint q b).length := by
    rw [← reprPoint_len hq a x, h, reprPoint_len hq]
  obtain ⟨h1, h2⟩ := List.append_inj h hl
  refine ⟨?_, h2⟩
  rw [← reprPoint_val hq a (by omega), h1, reprPoint_val hq b (by omega)]

private theorem body_told {q : UInt8} (hq : q = 34 ∨ q = 39) : ∀ (s t : UStr) (x y : Bytes), (∀ c ∈ s, c < 0x110000) →
    (∀ c ∈ t, c < 0x110000) → s.flatMap (reprPoint q) ++ q :: x = t.flatMap (reprPoint q) ++ q :: y → s = t ∧ x = y
  | [], [], x, y, _, _, h => by simpa using h
  | [], c :: t, x, y, _, _, h => by
    obtain ⟨d, r, h1, h2⟩ := reprPoint_head hq c
    simp [h1] at h
    exact absurd h.1.symm h2
  | c :: s, [], x, y, _, _, h => by
    obtain ⟨d, r, h1, h2⟩ := reprPoint_head hq c
    simp [h1] at h
    exact absurd h.1 h2
  | c :: s, d :: t, x, y, hs, ht, h => by
    simp only [List.flatMap_cons, List.append_assoc] at h
    obtain ⟨h1, h2⟩ := point_told hq c d _ _ (hs c (by simp)) (ht d (by simp)) h
    obtain ⟨h3, h4⟩ := body_told hq s t x y (fun c hc => hs c (by simp [hc])) (fun c hc => ht c (by simp [hc])) h2
    exact ⟨by rw [h1, h3], h4⟩

private theorem reprBytes_text (s : Bytes) : ∃ q, (q = 34 ∨ q = 39) ∧
    reprBytes s = q :: ((s.map UInt8.toNat).flatMap (reprPoint q) ++ [q]) := by
  have key : ∀ q, (s.map UInt8.toNat).flatMap (reprPoint q) = s.flatMap (reprByte q) := by
    intro q
    rw [List.flatMap_map]
    congr 1
    funext c
    rw [reprPoint_small c.toNat_lt]
    simp
  by_cases h : 39 ∈ s ∧ 34 ∉ s
  · exact ⟨34, .inl rfl, by simp [reprBytes, h, key]⟩
  · exact ⟨39, .inr rfl, by simp only [reprBytes, h, key, if_false]; rfl⟩

private theorem reprText_text (s : UStr) : ∃ q, (q = 34 ∨ q = 39) ∧
    reprText s = 117 :: q :: (s.flatMap (reprPoint q) ++ [q]) := by
  by_cases h : 39 ∈ s ∧ 34 ∉ s
  · exact ⟨34, .inl rfl, by simp [reprText, h]⟩
  · exact ⟨39, .inr rfl, by simp only [reprText, h, if_false]; rfl⟩

private theorem str_told : Told CodePoints reprStr := by
  intro a b x y ha hb h
  cases a with
  | b s =>
    obtain ⟨q, hq, e⟩ := reprBytes_text s
    cases b with
    | b t =>
      obtain ⟨q', hq', e'⟩ := reprBytes_text t
      simp only [reprStr, e, e', List.cons_append, List.append_assoc, List.cons.injEq, List.nil_append] at h
      obtain ⟨rfl, h⟩ := h
      obtain ⟨h1, h2⟩ := body_told hq _ _ _ _ (by simp; intro c _; have := c.toNat_lt; omega)
        (by simp; intro c _; have := c.toNat_lt; omega) h
      refine ⟨?_, h2⟩
      rw [List.map_inj_right (fun _ _ => UInt8.toNat_inj.1)] at h1
      rw [h1]
    | u t =>
      obtain ⟨q', hq', e'⟩ := reprText_text t
      simp only [reprStr, e, e', List.cons_append, List.cons.injEq] at h
      rcases hq with rfl | rfl <;> exact absurd h.1 (by decide)
  | u s =>
    obtain ⟨q, hq, e⟩ := reprText_text s
    cases b with
    | b t =>
      obtain ⟨q', hq', e'⟩ := reprBytes_text t
      simp only [reprStr, e, e', List.cons_append, List.cons.injEq] at h
      rcases hq' with rfl | rfl <;> exact absurd h.1 (by decide)
    | u t =>
      obtain ⟨q', hq', e'⟩ := reprText_text t
      simp only [reprStr, e, e', List.cons_append, List.append_assoc, List.cons.injEq, List.nil_append, true_and] at h
      obtain ⟨rfl, h⟩ := h
      obtain ⟨h1, h2⟩ := body_told hq _ _ _ _ ha hb h
      exact ⟨by rw [h1], h2⟩

private theorem reprStr_head (a : PyStr) : ∃ d t, reprStr a = d :: t ∧ (d = 34 ∨ d = 39 ∨ d = 117) := by
  cases a with
  | b s => obtain ⟨q, hq, e⟩ := reprBytes_text s; exact ⟨_, _, e, by rcases hq with h | h <;> simp [h]⟩
  | u s => obtain ⟨q, hq, e⟩ := reprText_text s; exact ⟨_, _, e, by simp⟩

/-- The text of a value that is no list. -/
private def flatText : Val PyStr → Bytes
  | .none => b!"None"
  | .atom a => reprStr a
  | .list _ => []

private theorem flat_told : Told FlatValue flatText := by
  intro a b x y ha hb h
  cases a with
  | list r => exact ha.elim
  | none =>
    cases b with
    | list r => exact hb.elim
    | none => exact ⟨rfl, by simpa [flatText] using h⟩
    | atom t =>
      obtain ⟨d, r, e, hd⟩ := reprStr_head t
      simp only [flatText, e, List.cons_append, List.cons.injEq] at h
      rcases hd with rfl | rfl | rfl <;> exact absurd h.1 (by decide)
  | atom s =>
    cases b with
    | list r => exact hb.elim
    | none =>
      obtain ⟨d, r, e, hd⟩ := reprStr_head s
      simp only [flatText, e, List.cons_append, List.cons.injEq] at h
      rcases hd with rfl | rfl | rfl <;> exact absurd h.1 (by decide)
    | atom t =>
      obtain ⟨h1, h2⟩ := str_told s t x y ha hb h
      exact ⟨by rw [h1], h2⟩

private theorem flat_head (v : Val PyStr) (h : FlatValue v) :
    ∃ d t, flatText v = d :: t ∧ (d = 34 ∨ d = 39 ∨ d = 117 ∨ d = 78) := by
  cases v with
  | list r => exact h.elim
  | none => exact ⟨_, _, rfl, by simp⟩
  | atom a =>
    obtain ⟨d, t, e, hd⟩ := reprStr_head a
    exact ⟨d, t, e, by rcases hd with h | h | h <;> simp [h]⟩

private theorem intercalate_cons {sep a : Bytes} (l : List Bytes) :
    List.intercalate sep (a :: l) = a ++ l.flatMap (sep ++ ·) := by
  induction l generalizing a with
  | nil => simp [List.intercalate]
  | cons b l ih =>
    have : List.intercalate sep (a :: b :: l) = a ++ sep ++ List.intercalate sep (b :: l) := by
      simp [List.intercalate, List.intersperse]
    rw [this, ih]
    simp

private theorem seq_told {α : Type} {P : α → Prop} {enc : α → Bytes} (ht : Told P enc) {close : UInt8} (hc : close ≠ 44)
    (hh : ∀ a, P a → ∃ d t, enc a = d :: t ∧ d ≠ close) :
    Told (fun l : List α => ∀ a ∈ l, P a) (fun l => List.intercalate b!", " (l.map enc) ++ [close]) := by
  have tail : ∀ (l l' : List α) (x y : Bytes), (∀ a ∈ l, P a) → (∀ a ∈ l', P a) →
      (l.map enc).flatMap (b!", " ++ ·) ++ close :: x = (l'.map enc).flatMap (b!", " ++ ·) ++ close :: y →
      l = l' ∧ x = y := by
    intro l
    induction l with
    | nil =>
      intro l' x y _ _ h
      cases l' with
      | nil => simpa using h
      | cons b l' => simp at h; exact absurd h.1 hc
    | cons a l ih =>
      intro l' x y hl hl' h
      cases l' with
      | nil => simp at h; exact absurd h.1.symm hc
      | cons b l' =>
        simp only [List.map_cons, List.flatMap_cons, List.append_assoc, List.append_cancel_left_eq] at h
        obtain ⟨h1, h2⟩ := ht a b _ _ (hl a (by simp)) (hl' b (by simp)) h
        obtain ⟨h3, h4⟩ := ih l' x y (fun a ha => hl a (by simp [ha])) (fun a ha => hl' a (by simp [ha])) h2
        exact ⟨by rw [h1, h3], h4⟩
  intro l l' x y hl hl' h
  cases l with
  | nil =>
    cases l' with
    | nil => simpa using h
    | cons b l' =>
      obtain ⟨d, t, e, hd⟩ := hh b (hl' b (by simp))
      simp only [List.map_cons, intercalate_cons, e, List.map_nil] at h
      simp [List.intercalate] at h
      exact absurd h.1.symm hd
  | cons a l =>
    cases l' with
    | nil =>
      obtain ⟨d, t, e, hd⟩ := hh a (hl a (by simp))
      simp only [List.map_cons, intercalate_cons, e, List.map_nil] at h
      simp [List.intercalate] at h
      exact absurd h.1 hd
    | cons b l' =>
      simp only [List.map_cons, intercalate_cons, List.append_assoc, List.cons_append, List.nil_append] at h
      obtain ⟨h1, h2⟩ := ht a b _ _ (hl a (by simp)) (hl' b (by simp)) h
      obtain ⟨h3, h4⟩ := tail l l' x y (fun a ha => hl a (by simp [ha])) (fun a ha => hl' a (by simp [ha])) h2
      exact ⟨by rw [h1, h3], h4⟩

/-- The text of a key with its values. -/
private def itemText (p : PyStr × List (Val PyStr)) : Bytes :=
  reprStr p.1 ++ (b!": [" ++ (List.intercalate b!", " (p.2.map flatText) ++ [93]))

private theorem item_told : Told (fun p : PyStr × List (Val PyStr) => CodePoints p.1 ∧ ∀ v ∈ p.2, FlatValue v) itemText := by
  intro a b x y ha hb h
  simp only [itemText, List.append_assoc] at h
  obtain ⟨h1, h2⟩ := str_told a.1 b.1 _ _ ha.1 hb.1 h
  simp only [List.append_cancel_left_eq] at h2
  obtain ⟨h3, h4⟩ := seq_told flat_told (close := 93) (by decide) (fun v hv => by
    obtain ⟨d, t, e, hd⟩ := flat_head v hv
    exact ⟨d, t, e, by rcases hd with rfl | rfl | rfl | rfl <;> decide⟩) a.2 b.2 x y ha.2 hb.2 (by simpa using h2)
  exact ⟨Prod.ext h1 h3, h4⟩

private theorem item_head (p : PyStr × List (Val PyStr)) : ∃ d t, itemText p = d :: t ∧ d ≠ 125 := by
  obtain ⟨d, t, e, hd⟩ := reprStr_head p.1
  exact ⟨d, _, by rw [itemText, e]; rfl, by rcases hd with rfl | rfl | rfl <;> decide⟩

private theorem repr_flat (m : Mem PyStr PyStr) (i : Nat) (h : FlatDict m i) :
    m.repr i = b!"<" ++ ((m.obj i).cls.name ++ (b!": {" ++ ((List.intercalate b!", "
      (((m.dict i).map fun p => (p.1, m.elems p.2)).map itemText) ++ [125]) ++ b!">"))) := by
  have hi : (m.dict i).map (fun p => reprStr p.1 ++ b!": " ++ reprVal m (m.lists.length + 1) [] (.list p.2)) =
      ((m.dict i).map fun p => (p.1, m.elems p.2)).map itemText := by
    rw [List.map_map]
    apply List.map_congr_left
    intro p hp
    have hv : (m.elems p.2).map (reprVal m m.lists.length [p.2]) = (m.elems p.2).map flatText := by
      apply List.map_congr_left
      intro v hv
      have := (h p hp).2 v hv
      cases v with
      | list r => exact this.elim
      | none => unfold reprVal; rfl
      | atom a => unfold reprVal; rfl
    show reprStr p.1 ++ b!": " ++ reprVal m (m.lists.length + 1) [] (.list p.2) = itemText (p.1, m.elems p.2)
    rw [reprVal]
    simp only [List.not_mem_nil, if_false, hv, itemText]
    simp
  unfold Mem.repr
  rw [hi]
  simp

/-- **C148.**  The representation of a dictionary says everything about it: two dictionaries of strings with the same
representation have the same class, the same keys and under each key the same values in the same order. -/
theorem C148_repr (m m' : Mem PyStr PyStr) (i i' : Nat) (h : FlatDict m i) (h' : FlatDict m' i')
    (he : m.repr i = m'.repr i') :
    (m.obj i).cls = (m'.obj i').cls ∧
      (m.dict i).map (fun p => (p.1, m.elems p.2)) = (m'.dict i').map (fun p => (p.1, m'.elems p.2)) := by
  rw [repr_flat m i h, repr_flat m' i' h'] at he
  have hc : (m.obj i).cls = (m'.obj i').cls := by
    cases h1 : (m.obj i).cls <;> cases h2 : (m'.obj i').cls <;> rw [h1, h2] at he <;> first
      | rfl
      | (simp [DCls.name] at he)
  refine ⟨hc, ?_⟩
  rw [hc] at he
  simp only [List.append_cancel_left_eq] at he
  have hp : ∀ (m : Mem PyStr PyStr) (i : Nat), FlatDict m i → ∀ q ∈ (m.dict i).map (fun p => (p.1, m.elems p.2)),
      CodePoints q.1 ∧ ∀ v ∈ q.2, FlatValue v := by
    intro m i h q hq
    obtain ⟨p, hp, rfl⟩ := List.mem_map.1 hq
    exact h p hp
  exact (seq_told item_told (close := 125) (by decide) (fun p _ => item_head p) _ _ _ _ (hp m i h) (hp m' i' h') he).1

/-- Two dictionaries that a careless representation would not tell apart. -/
example :
    let m : Mem PyStr PyStr := { lists := [[.atom (.b b!"x', 'y")], [.atom (.b b!"x"), .atom (.b b!"y")], [.atom (.u [0x20ac, 39])]],
                                 dicts := [{ data := [(.b b!"a", 0)] }, { data := [(.b b!"a", 1)] },
                                           { cls := .query, data := [(.u [97], 2), (.u [98], 1)] }] }
    FlatDict m 0 ∧ FlatDict m 1 ∧ FlatDict m 2 ∧
      m.repr 0 = b!"<MultiValueDict: {'a': [\"x', 'y\"]}>" ∧ m.repr 1 = b!"<MultiValueDict: {'a': ['x', 'y']}>" ∧
      m.repr 2 = b!"<QueryDict: {u'a': [u\"\\u20ac'\"], u'b': ['x', 'y']}>" := by
  refine ⟨?_, ?_, ?_, by decide +kernel, by decide +kernel, by decide +kernel⟩ <;>
    simp [FlatDict, Mem.dict, Mem.obj, Mem.elems, CodePoints, FlatValue]

/-! ## Lists in lists -/

private theorem reprVal_step (m : Mem PyStr PyStr) : ∀ (fuel : Nat) (seen : List Nat) (v : Val PyStr), seen.Nodup →
    (∀ r ∈ seen, r < m.lists.length) → m.lists.length + 1 ≤ fuel + seen.length →
    reprVal m (fuel + 1) seen v = reprVal m fuel seen v := by
  intro fuel
  induction fuel with
  | zero =>
    intro seen v hn hs hl
    have : seen.length ≤ (List.range m.lists.length).length :=
      (List.Nodup.subperm hn (fun r hr => List.mem_range.2 (hs r hr))).length_le
    simp only [List.length_range] at this
    omega
  | succ fuel ih =>
    intro seen v hn hs hl
    cases v with
    | none => simp only [reprVal]
    | atom a => simp only [reprVal]
    | list r =>
      rw [reprVal, reprVal]
      split
      · rfl
      rename_i hr
      by_cases hlt : r < m.lists.length
      · have : (m.elems r).map (reprVal m (fuel + 1) (r :: seen)) = (m.elems r).map (reprVal m fuel (r :: seen)) := by
          apply List.map_congr_left
          intro w _
          refine ih (r :: seen) w (List.nodup_cons.2 ⟨hr, hn⟩) ?_ (by simp only [List.length_cons]; omega)
          intro k hk
          rcases List.mem_cons.1 hk with rfl | hk
          · exact hlt
          · exact hs k hk
        rw [this]
      · have : m.elems r = [] := by simp [Mem.elems, List.getElem?_eq_none (by omega : m.lists.length ≤ r)]
        simp only [this, List.map_nil]

/-- The number of steps that the model allows for lists in lists does not matter. -/
theorem reprVal_fuel (m : Mem PyStr PyStr) (v : Val PyStr) (extra : Nat) :
    reprVal m (m.lists.length + 1 + extra) [] v = reprVal m (m.lists.length + 1) [] v := by
  induction extra with
  | zero => rfl
  | succ k ih =>
    rw [← ih]
    exact reprVal_step m _ [] v List.nodup_nil (by simp) (by simp)

/-! ## What is in the text -/

private theorem hex_print (n : Nat) : 32 ≤ hexLow (n % 16) ∧ hexLow (n % 16) < 127 := by
  have h : ∀ k < 16, 32 ≤ hexLow k ∧ hexLow k < 127 := by decide
  exact h _ (Nat.mod_lt _ (by decide))

private theorem point_print {q : UInt8} (hq : q = 34 ∨ q = 39) (c : Nat) : ∀ x ∈ reprPoint q c, 32 ≤ x ∧ x < 127 := by
  unfold reprPoint
  split
  · intro x hx
    simp only [List.map_cons, List.map_nil, List.cons_append, List.nil_append, List.mem_cons, List.not_mem_nil, or_false] at hx
    rcases hx with rfl | rfl | rfl | rfl | rfl | rfl | rfl | rfl | rfl | rfl <;> first | exact hex_print _ | decide
  split
  · intro x hx
    simp only [List.map_cons, List.map_nil, List.cons_append, List.nil_append, List.mem_cons, List.not_mem_nil, or_false] at hx
    rcases hx with rfl | rfl | rfl | rfl | rfl | rfl <;> first | exact hex_print _ | decide
  exact (reprByte_facts hq _).2.2.2

private theorem str_print (a : PyStr) : ∀ x ∈ reprStr a, 32 ≤ x ∧ x < 127 := by
  have body : ∀ q : UInt8, (q = 34 ∨ q = 39) → ∀ s : UStr, ∀ x ∈ q :: (s.flatMap (reprPoint q) ++ [q]), 32 ≤ x ∧ x < 127 := by
    intro q hq s x hx
    have hqq : 32 ≤ q ∧ q < 127 := by rcases hq with rfl | rfl <;> decide
    simp only [List.mem_cons, List.mem_append, List.mem_flatMap, List.not_mem_nil, or_false] at hx
    rcases hx with rfl | ⟨c, -, hx⟩ | rfl
    · exact hqq
    · exact point_print hq c x hx
    · exact hqq
  cases a with
  | b s =>
    obtain ⟨q, hq, e⟩ := reprBytes_text s
    show ∀ x ∈ reprBytes s, _
    rw [e]; exact body q hq _
  | u s =>
    obtain ⟨q, hq, e⟩ := reprText_text s
    show ∀ x ∈ reprText s, _
    rw [e]
    intro x hx
    rcases List.mem_cons.1 hx with rfl | hx
    · decide
    · exact body q hq _ x hx

private theorem join_print (l : List Bytes) (h : ∀ t ∈ l, ∀ x ∈ t, (32 : UInt8) ≤ x ∧ x < 127) :
    ∀ x ∈ List.intercalate b!", " l, 32 ≤ x ∧ x < 127 := by
  cases l with
  | nil => simp [List.intercalate]
  | cons a l =>
    rw [intercalate_cons]
    intro x hx
    simp only [List.mem_append, List.mem_flatMap] at hx
    rcases hx with hx | ⟨t, ht, hx | hx⟩
    · exact h a (by simp) x hx
    · revert x; decide
    · exact h t (by simp [ht]) x hx

private theorem val_print (m : Mem PyStr PyStr) : ∀ (fuel : Nat) (seen : List Nat) (v : Val PyStr),
    ∀ x ∈ reprVal m fuel seen v, 32 ≤ x ∧ x < 127 := by
  intro fuel
  induction fuel with
  | zero =>
    intro seen v
    cases v with
    | none => unfold reprVal; decide
    | atom a => unfold reprVal; exact str_print a
    | list r => unfold reprVal; decide
  | succ fuel ih =>
    intro seen v
    cases v with
    | none => unfold reprVal; decide
    | atom a => unfold reprVal; exact str_print a
    | list r =>
      unfold reprVal
      split
      · decide
      · intro x hx
        simp only [List.mem_append] at hx
        rcases hx with (hx | hx) | hx
        · revert x; decide
        · refine join_print _ (fun t ht => ?_) x hx
          obtain ⟨w, -, rfl⟩ := List.mem_map.1 ht
          exact ih _ w
        · revert x; decide

/-- **C148, what is in the text.**  The representation of any dictionary of strings, also one with lists in lists or
with a list that contains itself, consists of printable ASCII characters: nothing that came with a request puts a line
break, a control character or a byte over 126 into it. -/
theorem C148_printable (m : Mem PyStr PyStr) (i : Nat) : ∀ x ∈ m.repr i, 32 ≤ x ∧ x < 127 := by
  intro x hx
  unfold Mem.repr at hx
  simp only [List.mem_append] at hx
  rcases hx with (((hx | hx) | hx) | (hx | hx) | hx) | hx
  · revert x; decide
  · cases hc : (m.obj i).cls <;> rw [hc] at hx <;> revert x <;> decide
  · revert x; decide
  · revert x; decide
  · refine join_print _ (fun t ht => ?_) x hx
    obtain ⟨p, -, rfl⟩ := List.mem_map.1 ht
    intro x hx
    simp only [List.mem_append] at hx
    rcases hx with (hx | hx) | hx
    · exact str_print _ x hx
    · revert x; decide
    · exact val_print m _ _ _ x hx
  · revert x; decide
  · revert x; decide

/-- A list that contains itself, and a value with a line break. -/
example :
    let m : Mem PyStr PyStr := { lists := [[.list 0, .atom (.b b!"x\r\ny"), .none]], dicts := [{ cls := .immutable, data := [(.b [0], 0)] }] }
    m.repr 0 = b!"<ImmutableMultiValueDict: {'\\x00': [[...], 'x\\r\\ny', None]}>" := by
  decide +kernel

end Verif
