import Verif.Props.RequestHead
/-!
# C37: hosts that end in a line feed

`C37_partial` says what `split_domain_port` answers for every host that does not end in a line feed, `C37_refuted` gives
three hosts that do.  Here is the answer for all of them; together with `C37_partial` this covers every host.
-/

namespace Verif
open Spec

theorem hostForm_no_lf {s d p : Bytes} (h : HostForm s d p) : (10 : UInt8) ∉ s := by
  obtain ⟨hd, hp, hs⟩ := h
  have d10 : (10 : UInt8) ∉ d := by
    rcases hd with hd | ⟨x, t, rfl, hx, _, ht⟩
    · intro hm
      have := hd.2 _ hm
      revert this; unfold nameByte; decide
    · intro hm
      simp only [List.mem_append, List.mem_singleton] at hm
      rcases hm with (((h | h) | h) | h) | h
      · exact absurd h (by decide)
      · have := hx _ h; revert this; unfold hexByte; decide
      · exact absurd h (by decide)
      · have := ht _ h; revert this; unfold hexByte; decide
      · exact absurd h (by decide)
  have p10 : (10 : UInt8) ∉ p := by
    intro hm
    have := hp _ hm
    revert this; unfold digitByte; decide
  rcases hs with ⟨rfl, rfl⟩ | ⟨_, rfl⟩
  · exact d10
  · simp [d10, p10]

/-- **C37 is false of every host that would be valid without the line feed it ends in.**  It is not refused: with a port
the answer is the domain (without its trailing dot) and the port with the line feed, which is not all digits; a name
without port becomes a domain that ends in the line feed (and keeps its dot); an address in brackets without port is cut
at its last colon.  All other hosts that end in a line feed are refused. -/
theorem C37_linefeed_refuted (x : Bytes) :
    ((¬ ∃ d p, HostForm (Py.lower x) d p) → splitDomainPort (x ++ [10]) = ([], [])) ∧
    (∀ d p, HostForm (Py.lower x) d p → p ≠ [] →
      DotRemoved d (splitDomainPort (x ++ [10])).1 ∧ (splitDomainPort (x ++ [10])).2 = p ++ [10]) ∧
    (HostName (Py.lower x) → splitDomainPort (x ++ [10]) = (Py.lower x ++ [10], [])) ∧
    (∀ l r, HostIp6 (Py.lower x) → Py.lower x = l ++ [58] ++ r → 58 ∉ r →
      DotRemoved l (splitDomainPort (x ++ [10])).1 ∧ (splitDomainPort (x ++ [10])).2 = r ++ [10]) := by
  have hl : Py.lower (x ++ [10]) = Py.lower x ++ [10] := by
    unfold Py.lower; rw [List.map_append]; rfl
  have hlf : hostMatch (Py.lower x ++ [10]) = false := by
    rw [Bool.eq_false_iff]
    intro h
    obtain ⟨d, p, hf⟩ := (hostMatch_iff _).1 h
    exact hostForm_no_lf hf (by simp)
  have hv : hostValid (Py.lower x ++ [10]) = hostMatch (Py.lower x) := by
    simp [hostValid, hlf]
  unfold splitDomainPort
  dsimp only
  rw [hl, hv]
  generalize Py.lower x = s at *
  have h93 : ¬ ((s ++ [10]).getLast? = some 93) := by simp
  refine ⟨fun h => ?_, fun d p hf hp => ?_, fun hn => ?_, fun l r h6 hs hr => ?_⟩
  · rw [← hostMatch_iff] at h
    rw [if_pos (by simpa using h)]
  · rw [if_neg (by simp [(hostMatch_iff s).2 ⟨d, p, hf⟩]), if_neg h93]
    obtain ⟨_, hd, hs⟩ := hf
    rcases hs with ⟨rfl, _⟩ | ⟨_, rfl⟩
    · exact absurd rfl hp
    have e : d ++ [58] ++ p ++ [10] = d ++ 58 :: (p ++ [10]) := by simp
    have : Py.rsplitLast 58 (d ++ [58] ++ p ++ [10]) = some (d, p ++ [10]) := by
      rw [e]
      simp [Py.rsplitLast, Py.rfindChar_app (show (58 : UInt8) ∉ p ++ [10] by simp [digits_no_colon hd])]
    rw [this]
    exact ⟨dot_removed d, rfl⟩
  · rw [if_neg (by simp [(hostMatch_iff s).2 ⟨s, [], .inl hn, by simp, .inl ⟨rfl, rfl⟩⟩]), if_neg h93]
    have : Py.rsplitLast 58 (s ++ [10]) = none := by
      simp [Py.rsplitLast, Py.rfindChar_eq_none.2 (show (58 : UInt8) ∉ s ++ [10] by simp [HostName.no_colon hn])]
    rw [this]
    have hd := dot_removed (s ++ [10])
    dsimp only [Option.getD]
    split
    · rename_i h
      rw [if_pos h] at hd
      rcases hd with hd | ⟨_, hd⟩
      · have := congrArg List.getLast? hd
        simp at this
      · simp only [Py.endsWith, List.isSuffixOf_iff_suffix] at h
        obtain ⟨t, ht⟩ := h
        exact absurd ht.symm (hd t)
    · rfl
  · rw [if_neg (by simp [(hostMatch_iff s).2 ⟨s, [], .inr h6, by simp, .inl ⟨rfl, rfl⟩⟩]), if_neg h93]
    have e : s ++ [10] = l ++ 58 :: (r ++ [10]) := by rw [hs]; simp
    have : Py.rsplitLast 58 (s ++ [10]) = some (l, r ++ [10]) := by
      rw [e]
      simp [Py.rsplitLast, Py.rfindChar_app (show (58 : UInt8) ∉ r ++ [10] by simp [hr])]
    rw [this]
    exact ⟨dot_removed l, rfl⟩

/-- A host with a port, a name without, an address without, and one that is refused. -/
example : (splitDomainPort b!"Example.COM.:8080\n" = (b!"example.com", b!"8080\n") ∧
      HostForm (Py.lower b!"Example.COM.:8080") b!"example.com." b!"8080") ∧
    (splitDomainPort b!"a.b.\n" = (b!"a.b.\n", []) ∧ HostName (Py.lower b!"a.b.")) ∧
    (splitDomainPort b!"[fe80::1]\n" = (b!"[fe80:", b!"1]\n") ∧ HostIp6 (Py.lower b!"[fe80::1]")) ∧
    splitDomainPort b!"a b\n" = ([], []) := by
  refine ⟨⟨by decide +kernel, .inl ⟨by decide, ?_⟩, ?_, .inr ⟨by decide, by decide +kernel⟩⟩,
    ⟨by decide +kernel, by decide, ?_⟩, ⟨by decide +kernel, b!"fe80", b!":1", by decide +kernel, ?_, by decide, ?_⟩,
    by decide +kernel⟩ <;> simp only [nameByte, digitByte, hexByte] <;> decide +kernel

end Verif
