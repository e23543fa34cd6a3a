import Verif.Proofs.NoneIff

/-!
The number of parameters of every network, and the classification of its weight products.
-/

namespace NNJ

mutual
theorem Net.nParams_eq : {s s' : List Nat} → {n k p : Nat} → (N : Net s n s' k p) → N.mod.nParams = p
  | _, _, _, _, _, .linear _ _ bId _ _ _ _ => by cases bId <;> rfl
  | _, _, _, _, _, .act a _ _ _ _ _ => by cases a <;> rfl
  | _, _, _, _, _, .flatten _ _ _ _ _ => rfl
  | _, _, _, _, _, .reshape _ _ _ _ _ _ _ _ _ => rfl
  | _, _, _, _, _, .l2norm _ _ _ _ _ _ _ => rfl
  | _, _, _, _, _, .conv _ _ bId g => by
    cases bId <;> simp [Net.mod, Conv2d.mod, PureLayer.toMod, Conv2d.Cfg.nParams, Conv2d.Cfg.weightNumel, ConvDims.cfg, biasLen, Nat.mul_assoc]
  | _, _, _, _, _, .upsample _ _ _ _ _ _ _ _ _ => rfl
  | _, _, _, _, _, .maxpool _ _ => rfl
  | _, _, _, _, _, .seq _ c => c.nParams_eq
  | _, _, _, _, _, .skip _ _ ch => ch.nParams_eq
theorem Chain.nParams_eq : {s s' : List Nat} → {n k p l : Nat} → (c : Chain s n s' k p l) → Sequential.nParams c.mods = p
  | _, _, _, _, _, _, .nil _ _ _ _ => rfl
  | _, _, _, _, _, _, .snoc c m => by
    have h1 := c.nParams_eq
    have h2 := m.nParams_eq
    simp only [Sequential.nParams] at h1
    simp [Chain.mods, Sequential.nParams, h1, h2]
end

theorem NoneIffR.iff {α : Type} {L : PureLayer α} {c d : Prop} (h : NoneIffR L c) (e : c ↔ d) : NoneIffR L d := by
  rw [← propext e]; exact h

mutual
theorem Net.noneIff : {s s' : List Nat} → {n k p : Nat} → (N : Net s n s' k p) → NoneIff N.mod
  | _, _, _, _, _, .linear _ _ bId i o hi ho =>
    NoneIffR.toMod fun s => (linear_noneIff _ _ _).iff (by have := Nat.mul_pos ho hi; simp only [false_iff]; omega)
  | _, _, _, _, _, .act a _ _ _ _ _ => by
    cases a <;> exact NoneIffR.toMod fun _ => (act_noneIff _ _).iff (by simp)
  | _, _, _, _, _, .flatten _ _ _ _ _ => NoneIffR.toMod fun _ => (resh_noneIff _).iff (by simp)
  | _, _, _, _, _, .reshape _ _ _ _ _ _ _ _ _ => NoneIffR.toMod fun _ => (resh_noneIff _).iff (by simp)
  | _, _, _, _, _, .l2norm _ _ _ _ _ _ _ => NoneIffR.toMod fun _ => (jac_noneIff (fun _ _ => by
      simp only [L2Norm.jacobian]; rpost; rfl) fun _ _ => by simp only [L2Norm.jacobian]; rpost <;> simp).iff (by simp)
  | _, _, _, _, _, .conv id wId bId g => by
    have h := (Net.conv id wId bId g).nParams_eq
    refine NoneIffR.toMod fun s => (conv_noneIff _ _ _).iff ?_
    have := Nat.mul_pos (Nat.mul_pos (Nat.mul_pos g.hc2 g.hc1) g.pkh) g.pkw
    rw [show (g.cfg bId).nParams = _ from h]
    simp only [false_iff]; omega
  | _, _, _, _, _, .upsample _ _ _ _ _ _ _ _ _ => NoneIffR.toMod fun _ => (upsample_noneIff _).iff (by simp)
  | _, _, _, _, _, .maxpool _ g => maxpool_noneIff g.a _
  | _, _, _, _, _, .seq _ c => Sequential.noneIff _ _ c.noneIff
  | _, _, _, _, _, .skip _ _ ch => SkipConnection.noneIff _ (Sequential.noneIff _ _ ch.noneIff)
theorem Chain.noneIff : {s s' : List Nat} → {n k p l : Nat} → (c : Chain s n s' k p l) → ∀ m ∈ c.mods, NoneIff m
  | _, _, _, _, _, _, .nil _ _ _ _ => by simp [Chain.mods]
  | _, _, _, _, _, _, .snoc c m => by
    have h1 := c.noneIff
    have h2 := m.noneIff
    simp only [Chain.mods, List.mem_append, List.mem_singleton]
    rintro m' (h | rfl)
    · exact h1 _ h
    · exact h2
end

mutual
theorem Net.sizes : {s s' : List Nat} → {n k p : Nat} → Net s n s' k p → size s = n ∧ size s' = k ∧ 0 < n ∧ 0 < k
  | _, _, _, _, _, .linear _ _ _ _ _ hi ho => ⟨by simp [size], by simp [size], hi, ho⟩
  | _, _, _, _, _, .act _ _ _ _ hs hn => ⟨hs, hs, hn, hn⟩
  | _, _, _, _, _, .flatten _ _ _ hs hn => ⟨hs, by simp [size], hn, hn⟩
  | _, _, _, _, _, .reshape _ _ _ _ hs hd hn _ _ => ⟨hs, hd, hn, hn⟩
  | _, _, _, _, _, .l2norm _ _ _ _ hs _ hn => ⟨hs, hs, hn, hn⟩
  | _, _, _, _, _, .conv _ _ _ g => ⟨by simp [size, Nat.mul_assoc], by simp [size, Nat.mul_assoc],
      Nat.mul_pos (Nat.mul_pos g.hc1 g.ph1) g.pw1, Nat.mul_pos (Nat.mul_pos g.hc2 g.ph2) g.pw2⟩
  | _, _, _, _, _, .upsample _ _ _ _ _ hc hh hw hr => ⟨by simp [size, Nat.mul_assoc], by simp [size, Nat.mul_assoc],
      Nat.mul_pos (Nat.mul_pos hc hh) hw, Nat.mul_pos (Nat.mul_pos hc (Nat.mul_pos hh hr)) (Nat.mul_pos hw hr)⟩
  | _, _, _, _, _, .maxpool _ g => ⟨by simp [size, Nat.mul_assoc], by simp [size, Nat.mul_assoc],
      Nat.mul_pos (Nat.mul_pos g.hc g.fits.hh) g.fits.hw, Nat.mul_pos (Nat.mul_pos g.hc g.fits.hh2) g.fits.hw2⟩
  | _, _, _, _, _, .seq _ c => c.sizes
  | _, _, _, _, _, .skip (a := a) (c := c) (r := r) _ _ ch => by
    obtain ⟨h1, h2, h3, h4⟩ := ch.sizes
    refine ⟨h1, ?_, h3, by omega⟩
    rw [← h1, ← h2]
    simp [size, Nat.add_mul]
theorem Chain.sizes : {s s' : List Nat} → {n k p l : Nat} → Chain s n s' k p l → size s = n ∧ size s' = k ∧ 0 < n ∧ 0 < k
  | _, _, _, _, _, _, .nil _ _ hs hn => ⟨hs, hs, hn, hn⟩
  | _, _, _, _, _, _, .snoc c m => ⟨c.sizes.1, m.sizes.2.1, c.sizes.2.2.1, m.sizes.2.2.2⟩
end

end NNJ
