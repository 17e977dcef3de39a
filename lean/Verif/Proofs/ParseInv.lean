import Verif.Proofs.ParseSpin
/-! Reading `Parses` forwards: what must happen with a given part. -/

namespace Verif
open Spec

theorem PartHead.inv {C : Codecs} {P : Bytes} {t t0 : ItemType} {md md0 : MetaData} {content : Bytes}
    {i : Nat} (h : PartHead C P t md content) (hf : Py.find b!"\r\n\r\n" (P.take 1024) = some i)
    (hp : partHeaders C (Py.splitPair 13 10 (P.take i)) .raw [] = .ok (t0, md0)) (ht : t0 ≠ .raw) :
    t = t0 ∧ md = md0 ∧ content = P.drop (i + 4) := by
  cases h with
  | noHeader h => rw [hf] at h; simp at h
  | header h h2 _ =>
    rw [hf] at h
    simp only [Option.some.injEq] at h; subst h
    rw [hp] at h2
    simp only [Except.ok.injEq, Prod.mk.injEq] at h2
    exact ⟨h2.1.symm, h2.2.symm, rfl⟩
  | rawHeader h h2 =>
    rw [hf] at h
    simp only [Option.some.injEq] at h; subst h
    rw [hp] at h2
    simp only [Except.ok.injEq, Prod.mk.injEq] at h2
    exact absurd h2.1 ht

theorem PartHead.inv_none {C : Codecs} {P : Bytes} {t : ItemType} {md : MetaData} {content : Bytes}
    (h : PartHead C P t md content) (hf : Py.find b!"\r\n\r\n" (P.take 1024) = none) :
    t = .raw ∧ md = [] ∧ content = P := by
  cases h with
  | noHeader h => exact ⟨rfl, rfl, rfl⟩
  | header h h2 _ => rw [hf] at h; simp at h
  | rawHeader h h2 => rw [hf] at h; simp at h

section
variable {ρ σ F : Type} {H : HandlerOps ρ σ F} {C : Codecs} {S : Settings} {fuel64 : Nat}
  {t : ItemType} {md : MetaData} {content : Bytes} {st st' st1 : PState σ F} {b : Bool}
  {r : Except Exc Unit}

theorem PartRun.skip_inv (h : PartRun C S H fuel64 t md content st b r st')
    (hc : completeOld H st = (.ok (), st1)) (hn : partName md = none) :
    r = .ok () ∧ st' = st1 ∧ b = false := by
  cases h with
  | completeErr h1 => rw [hc] at h1; simp at h1
  | skip h1 => rw [hc] at h1; simp at h1; exact ⟨rfl, h1.symm, rfl⟩
  | _ h1 h2 => rw [hn] at h2; simp at h2

theorem PartRun.err_inv {e} (h : PartRun C S H fuel64 t md content st b r st')
    (hc : completeOld H st = (.error e, st1)) : r = .error e ∧ st' = st1 := by
  cases h with
  | completeErr h1 => rw [hc] at h1; simp at h1; exact ⟨by rw [h1.1], h1.2.symm⟩
  | _ h1 => rw [hc] at h1; simp at h1

theorem PartRun.field_inv {d n name} (h : PartRun C S H fuel64 t md content st b r st')
    (hc : completeOld H st = (.ok (), st1)) (hn : partName md = some (d, n))
    (hf : forceText n.strip = .ok name) (ht : t = .field)
    (hk : S.maxFields.any (· < ((st1.numKeys + 1 : Nat) : Int)) = false)
    (hm : S.dataMaxMemory.any (· < (st1.numBytes : Int)) = false) :
    ∃ raw, raw = (match S.dataMaxMemory with
        | none => content
        | some m => content.take (m - st1.numBytes).toNat) ∧
      storeField C S name (transferEnc md) md raw { st1 with numKeys := st1.numKeys + 1 } = (r, st') ∧
      (r = .ok () → raw = content ∧ b = true) := by
  subst ht
  cases h with
  | completeErr h1 => rw [hc] at h1; simp at h1
  | skip h1 h2 => rw [hn] at h2; simp at h2
  | nameErr h1 h2 h3 =>
    rw [hn] at h2; simp at h2; obtain ⟨rfl, rfl⟩ := h2; rw [hf] at h3; simp at h3
  | tooMany h1 _ _ _ h5 => rw [hc] at h1; simp at h1; subst h1; rw [hk] at h5; simp at h5
  | negative h1 _ _ _ h5 => rw [hc] at h1; simp at h1; subst h1; rw [hm] at h5; simp at h5
  | field h1 h2 h3 _ _ _ h7 h8 h9 =>
    rw [hc] at h1; simp at h1; subst h1
    rw [hn] at h2; simp at h2; obtain ⟨rfl, rfl⟩ := h2
    rw [hf] at h3; simp at h3; subst h3
    exact ⟨_, h7, h8, fun hr => ⟨h9 hr, by simp [hr]⟩⟩
  | fileNameErr _ _ _ h4 => simp at h4
  | noFileName _ _ _ h4 => simp at h4
  | file _ _ _ h4 => simp at h4
  | fileSkip _ _ _ h4 => simp at h4
  | fileErr _ _ _ h4 => simp at h4

theorem PartRun.file_inv {d n name fn} (h : PartRun C S H fuel64 t md content st b r st')
    (hc : completeOld H st = (.ok (), st1)) (hn : partName md = some (d, n))
    (hf : forceText n.strip = .ok name) (ht : t = .file)
    (hd : dispositionFileName d = .ok fn) (hfn : fn ≠ []) :
    ∃ r0 cs w, RecvRun H fuel64 (fileArgs name fn (transferEnc md) md) content st1.world r0 cs w ∧
      ((r0 = .ok () ∧ r = .ok () ∧ b = true ∧
          st' = { st1 with world := w, counters := cs, oldField := some name }) ∨
        (r0 = .error .skipFile ∧ ∃ w', closeFiles H (List.range H.count) w = (r, w') ∧
          b = decide (r = .ok ()) ∧ st' = { st1 with world := w', counters := cs }) ∨
        (∃ e, r0 = .error e ∧ e ≠ .skipFile ∧ r = .error e ∧ b = false ∧
          st' = { st1 with world := w, counters := cs })) := by
  subst ht
  cases h with
  | completeErr h1 => rw [hc] at h1; simp at h1
  | skip h1 h2 => rw [hn] at h2; simp at h2
  | nameErr h1 h2 h3 =>
    rw [hn] at h2; simp at h2; obtain ⟨rfl, rfl⟩ := h2; rw [hf] at h3; simp at h3
  | tooMany _ _ _ h4 => simp at h4
  | negative _ _ _ h4 => simp at h4
  | field _ _ _ h4 => simp at h4
  | fileNameErr h1 h2 h3 _ h5 =>
    rw [hn] at h2; simp at h2; obtain ⟨rfl, rfl⟩ := h2; rw [hd] at h5; simp at h5
  | noFileName h1 h2 h3 _ h5 =>
    rw [hn] at h2; simp at h2; obtain ⟨rfl, rfl⟩ := h2; rw [hd] at h5; simp at h5
    exact absurd h5 hfn
  | file h1 h2 h3 _ h5 _ h7 =>
    rw [hc] at h1; simp at h1; subst h1
    rw [hn] at h2; simp at h2; obtain ⟨rfl, rfl⟩ := h2
    rw [hf] at h3; simp at h3; subst h3
    rw [hd] at h5; simp at h5; subst h5
    exact ⟨_, _, _, h7, .inl ⟨rfl, rfl, rfl, rfl⟩⟩
  | fileSkip h1 h2 h3 _ h5 _ h7 h8 =>
    rw [hc] at h1; simp at h1; subst h1
    rw [hn] at h2; simp at h2; obtain ⟨rfl, rfl⟩ := h2
    rw [hf] at h3; simp at h3; subst h3
    rw [hd] at h5; simp at h5; subst h5
    exact ⟨_, _, _, h7, .inr (.inl ⟨rfl, _, h8, rfl, rfl⟩)⟩
  | fileErr h1 h2 h3 _ h5 _ h7 h8 =>
    rw [hc] at h1; simp at h1; subst h1
    rw [hn] at h2; simp at h2; obtain ⟨rfl, rfl⟩ := h2
    rw [hf] at h3; simp at h3; subst h3
    rw [hd] at h5; simp at h5; subst h5
    exact ⟨_, _, _, h7, .inr (.inr ⟨_, rfl, h8, rfl, rfl, rfl⟩)⟩

/-- One step of the loop over the parts, when the header of the part can be parsed. -/
theorem Parses.step_inv {sep D D' : Bytes} (h : Parses C S H fuel64 sep D st r D' st')
    (hD : D ≠ []) (hh : ∀ e, ¬ HeadErr C (cut sep D) e) :
    ∃ t md content b r1 D1 st1, PartHead C (cut sep D) t md content ∧
      PartRun C S H fuel64 t md content st b r1 st1 ∧ D1 <:+ D ∧
      ((∃ e, r1 = .error e ∧ r = .error e ∧ st' = st1) ∨
       (r1 = .ok () ∧ D1.length < D.length ∧ (b = true ∨ (cut sep D).length < 1024 → D1 = after sep D) ∧
        Parses C S H fuel64 sep D1 st1 r D' st')) := by
  cases h with
  | done => exact absurd rfl hD
  | headErr _ h => exact absurd h (hh _)
  | partErr _ h1 h2 h3 => exact ⟨_, _, _, _, _, _, _, h1, h2, h3, .inl ⟨_, rfl, rfl, rfl⟩⟩
  | part _ h1 h2 h3 h4 h5 h6 => exact ⟨_, _, _, _, _, _, _, h1, h2, h3, .inr ⟨rfl, h4, h5, h6⟩⟩

theorem Parses.nil_inv {sep D' : Bytes} (h : Parses C S H fuel64 sep [] st r D' st') :
    r = .ok () ∧ st' = st := by
  cases h with
  | done => exact ⟨rfl, rfl⟩
  | headErr h => exact absurd rfl h
  | partErr h => exact absurd rfl h
  | part h => exact absurd rfl h

end
end Verif
