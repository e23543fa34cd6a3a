import Verif.Proofs.BroadcastLeaf
import Verif.Spec.NdLinear

/-! `nnj.Linear` with respect to the weights, with arguments of other shapes. -/

namespace NNJ
open Tensor Matrix

section
variable {R B n m : Nat} {u v : Tensor ℝ} {U : Fin R → Fin n → ℝ} {D : Fin B → Fin m → ℝ}

/-- `einsum("bi,bj->bij")` of operands with different numbers of rows -/
theorem ein_outer_rows (hR : 0 < R) (hB : 0 < B) (hu : IsVec u R n U) (hv : IsVec v B m D) (h : R = 1 ∨ B = 1 ∨ R = B) :
    Ret (einsum% "bi,bj->bij" [u, v]) fun r => IsMat r (if R = 1 then B else R) n m fun b i j => U (rowOr0 hR b) i * D (rowOr0 hB b) j := by
  have hd : labelDim (labelPairs [['b', 'i'], ['b', 'j']] [u, v]) 'b' = if R = 1 then B else R := by
    simp only [labelPairs, hu.1, hv.1, labelDim, List.zip_cons_cons, List.zip_nil_right, List.cons_append, List.nil_append]
    simp
    split_ifs <;> omega
  have hi : labelDim (labelPairs [['b', 'i'], ['b', 'j']] [u, v]) 'i' = n := by
    simp only [labelPairs, hu.1, hv.1, labelDim, List.zip_cons_cons, List.zip_nil_right, List.cons_append, List.nil_append]
    simp
    intro h; exact h.symm
  have hj : labelDim (labelPairs [['b', 'i'], ['b', 'j']] [u, v]) 'j' = m := by
    simp only [labelPairs, hu.1, hv.1, labelDim, List.zip_cons_cons, List.zip_nil_right, List.cons_append, List.nil_append]
    simp
    intro h; exact h.symm
  have hr : ranksOk [['b', 'i'], ['b', 'j']] [u, v] = true := by simp [ranksOk, hu.1, hv.1]
  have ho : operandsDiagOk [['b', 'i'], ['b', 'j']] [u, v] = true := by simp [operandsDiagOk, diagOk, hu.1, hv.1]
  have hall : (labelPairs [['b', 'i'], ['b', 'j']] [u, v]).all
      (fun q => decide (q.2 = 1 ∨ q.2 = labelDim (labelPairs [['b', 'i'], ['b', 'j']] [u, v]) q.1)) = true := by
    rw [List.all_eq_true]
    intro q hq
    have hq' : q = ('b', R) ∨ q = ('i', n) ∨ q = ('b', B) ∨ q = ('j', m) := by
      simpa [labelPairs, hu.1, hv.1] using hq
    rw [decide_eq_true_eq]
    rcases hq' with rfl | rfl | rfl | rfl
    · rw [hd]; dsimp only; split_ifs <;> omega
    · rw [hi]; exact .inr rfl
    · rw [hd]; dsimp only; split_ifs <;> omega
    · rw [hj]; exact .inr rfl
  unfold einsum
  rw [hr, ho]
  simp only [Bool.and_self, if_true]
  rw [if_pos hall]
  refine Ret.ok ⟨by simp only [ofFn_shape, List.map, hd, hi, hj], fun b i j => ?_⟩
  rw [get_ofFn _ (by simp only [List.map, hd, hi, hj]; simp)]
  have hc : contracted ['b', 'i', 'j'] [['b', 'i'], ['b', 'j']].flatten [] = [] := by simp [contracted]
  have e1 : ∀ (r : Nat) (hr : 0 < r) (b q : Nat) (i : Fin q) (z : Fin r → Fin q → ℝ) (t : Tensor ℝ), IsVec t r q z → b < r ∨ r = 1 →
      t.get [if r = 1 then 0 else b, if q = 1 then 0 else (i : Nat)] = z (rowOr0 hr b) i := by
    intro r hr b q i z t ht hb
    have hn : (if q = 1 then 0 else (i : Nat)) = i := by split_ifs <;> omega
    have hb' : (if r = 1 then 0 else b) = (rowOr0 hr b : Nat) := by
      simp only [rowOr0]; split_ifs <;> dsimp only <;> omega
    rw [hn, hb', ht.2]
  have hb : (b : Nat) < if R = 1 then B else R := b.2
  simp only [hc, sumLabels, List.zip_cons_cons, List.zip_nil_right, operandsProd, operandIdx, hu.1, hv.1, prodList, envGet]
  simp only [if_true, show ('b' = 'i') = False by decide, show ('b' = 'j') = False by decide, show ('i' = 'j') = False by decide,
    show ('i' = 'b') = False by decide, show ('j' = 'b') = False by decide, show ('j' = 'i') = False by decide, if_false, mul_one]
  rw [e1 R hR b n i U u hu (by split_ifs at hb <;> omega), e1 B hB b m j D v hv (by split_ifs at hb <;> omega)]

theorem ein_outer_bad (hu : IsVec u R n U) (hv : IsVec v B m D) (h1 : R ≠ 1) (h2 : B ≠ 1) (h : R ≠ B) :
    einsum% "bi,bj->bij" [u, v] = .error .shape := by
  have hd : labelDim (labelPairs [['b', 'i'], ['b', 'j']] [u, v]) 'b' = R := by
    simp [labelPairs, hu.1, hv.1, labelDim, h1]
  have h4 : ¬ ((labelPairs [['b', 'i'], ['b', 'j']] [u, v]).all
      (fun q => decide (q.2 = 1 ∨ q.2 = labelDim (labelPairs [['b', 'i'], ['b', 'j']] [u, v]) q.1)) = true) := by
    intro h4
    rw [List.all_eq_true] at h4
    have := h4 ('b', B) (by simp [labelPairs, hu.1, hv.1])
    rw [hd] at this
    simp [h2] at this
    exact h this.symm
  unfold einsum
  dsimp only
  rw [if_neg h4, ite_self]

/-- `einsum("bj,bi->bij")` of operands with different numbers of rows -/
theorem ein_outer_rows' (hR : 0 < R) (hB : 0 < B) (hu : IsVec u R n U) (hv : IsVec v B m D) (h : R = 1 ∨ B = 1 ∨ R = B) :
    Ret (einsum% "bj,bi->bij" [u, v]) fun r => IsMat r (if R = 1 then B else R) m n fun b i j => U (rowOr0 hR b) j * D (rowOr0 hB b) i := by
  have hd : labelDim (labelPairs [['b', 'j'], ['b', 'i']] [u, v]) 'b' = if R = 1 then B else R := by
    simp only [labelPairs, hu.1, hv.1, labelDim, List.zip_cons_cons, List.zip_nil_right, List.cons_append, List.nil_append]
    simp
    split_ifs <;> omega
  have hi : labelDim (labelPairs [['b', 'j'], ['b', 'i']] [u, v]) 'i' = m := by
    simp only [labelPairs, hu.1, hv.1, labelDim, List.zip_cons_cons, List.zip_nil_right, List.cons_append, List.nil_append]
    simp
    intro h; exact h.symm
  have hj : labelDim (labelPairs [['b', 'j'], ['b', 'i']] [u, v]) 'j' = n := by
    simp only [labelPairs, hu.1, hv.1, labelDim, List.zip_cons_cons, List.zip_nil_right, List.cons_append, List.nil_append]
    simp
    intro h; exact h.symm
  have hr : ranksOk [['b', 'j'], ['b', 'i']] [u, v] = true := by simp [ranksOk, hu.1, hv.1]
  have ho : operandsDiagOk [['b', 'j'], ['b', 'i']] [u, v] = true := by simp [operandsDiagOk, diagOk, hu.1, hv.1]
  have hall : (labelPairs [['b', 'j'], ['b', 'i']] [u, v]).all
      (fun q => decide (q.2 = 1 ∨ q.2 = labelDim (labelPairs [['b', 'j'], ['b', 'i']] [u, v]) q.1)) = true := by
    rw [List.all_eq_true]
    intro q hq
    have hq' : q = ('b', R) ∨ q = ('j', n) ∨ q = ('b', B) ∨ q = ('i', m) := by
      simpa [labelPairs, hu.1, hv.1] using hq
    rw [decide_eq_true_eq]
    rcases hq' with rfl | rfl | rfl | rfl
    · rw [hd]; dsimp only; split_ifs <;> omega
    · rw [hj]; exact .inr rfl
    · rw [hd]; dsimp only; split_ifs <;> omega
    · rw [hi]; exact .inr rfl
  unfold einsum
  rw [hr, ho]
  simp only [Bool.and_self, if_true]
  rw [if_pos hall]
  refine Ret.ok ⟨by simp only [ofFn_shape, List.map, hd, hi, hj], fun b i j => ?_⟩
  rw [get_ofFn _ (by simp only [List.map, hd, hi, hj]; simp)]
  have hc : contracted ['b', 'i', 'j'] [['b', 'j'], ['b', 'i']].flatten [] = [] := by simp [contracted]
  have e1 : ∀ (r : Nat) (hr : 0 < r) (b q : Nat) (i : Fin q) (z : Fin r → Fin q → ℝ) (t : Tensor ℝ), IsVec t r q z → b < r ∨ r = 1 →
      t.get [if r = 1 then 0 else b, if q = 1 then 0 else (i : Nat)] = z (rowOr0 hr b) i := by
    intro r hr b q i z t ht hb
    have hn : (if q = 1 then 0 else (i : Nat)) = i := by split_ifs <;> omega
    have hb' : (if r = 1 then 0 else b) = (rowOr0 hr b : Nat) := by
      simp only [rowOr0]; split_ifs <;> dsimp only <;> omega
    rw [hn, hb', ht.2]
  have hb : (b : Nat) < if R = 1 then B else R := b.2
  simp only [hc, sumLabels, List.zip_cons_cons, List.zip_nil_right, operandsProd, operandIdx, hu.1, hv.1, prodList, envGet]
  simp only [if_true, show ('b' = 'i') = False by decide, show ('b' = 'j') = False by decide, show ('i' = 'j') = False by decide,
    show ('i' = 'b') = False by decide, show ('j' = 'b') = False by decide, show ('j' = 'i') = False by decide, if_false, mul_one]
  rw [e1 R hR b n j U u hu (by split_ifs at hb <;> omega), e1 B hB b m i D v hv (by split_ifs at hb <;> omega)]

theorem ein_outer_bad' (hu : IsVec u R n U) (hv : IsVec v B m D) (h1 : R ≠ 1) (h2 : B ≠ 1) (h : R ≠ B) :
    einsum% "bj,bi->bij" [u, v] = .error .shape := by
  have hd : labelDim (labelPairs [['b', 'j'], ['b', 'i']] [u, v]) 'b' = R := by
    simp [labelPairs, hu.1, hv.1, labelDim, h1]
  have h4 : ¬ ((labelPairs [['b', 'j'], ['b', 'i']] [u, v]).all
      (fun q => decide (q.2 = 1 ∨ q.2 = labelDim (labelPairs [['b', 'j'], ['b', 'i']] [u, v]) q.1)) = true) := by
    intro h4
    rw [List.all_eq_true] at h4
    have := h4 ('b', B) (by simp [labelPairs, hu.1, hv.1])
    rw [hd] at this
    simp [h2] at this
    exact h this.symm
  unfold einsum
  dsimp only
  rw [if_neg h4, ite_self]

end

/-- tensors that differ in the size along dimension 0 cannot be concatenated along dimension 1 -/
theorem cat2_bad {a c : Tensor ℝ} {R B m n : Nat} (ha : a.shape = [R, m]) (hc : c.shape = [B, n]) (h : R ≠ B) : cat2 a c 1 = .error .shape := by
  simp [cat2, ha, hc, h]

theorem cat2_shape1 {a c : Tensor ℝ} {B m n : Nat} (ha : a.shape = [B, m]) (hc : c.shape = [B, n]) :
    Ret (cat2 a c 1) fun t => t.shape = [B, m + n] := by
  simp only [cat2, ha, hc, List.getElem?_cons_succ, List.getElem?_cons_zero, List.set, if_true]
  exact Ret.ok rfl

/-- elementwise sums of three-dimensional tensors -/
theorem add3_bad {a c : Tensor ℝ} {B R o m m' : Nat} (ha : a.shape = [B, o, m']) (hc : c.shape = [R, o, m])
    (h : (B ≠ R ∧ B ≠ 1 ∧ R ≠ 1) ∨ (m' ≠ m ∧ m' ≠ 1 ∧ m ≠ 1)) : a.add c = .error .shape := by
  have hne : a.shape ≠ c.shape := by
    rw [ha, hc]
    intro e
    simp only [List.cons.injEq, and_true] at e
    rcases h with h | h
    · exact h.1 e.1
    · exact h.1 e.2.2
  simp only [Tensor.add, zipWithB]
  rw [if_neg hne]
  simp only [ha, hc]
  have hb : broadcastRev [m', o, B] [m, o, R] = none := by
    simp only [broadcastRev, if_true]
    rcases h with ⟨h1, h2, h3⟩ | ⟨h1, h2, h3⟩
    · simp only [h1, h2, h3, if_false, Option.map_none]
      split_ifs <;> rfl
    · simp only [h1, h2, h3, if_false]
  simp only [List.reverse_cons, List.reverse_nil, List.nil_append, List.cons_append, hb]

theorem add3_left {a c : Tensor ℝ} {B o m : Nat} {F : Fin B → Fin o → ℝ} {G : Fin o → Fin m → ℝ} (hB : B ≠ 1) (hm : m ≠ 1) (ha : IsMat a B o 1 fun b k _ => F b k)
    (hc : IsMat c 1 o m fun _ => G) : Ret (a.add c) fun t => IsMat t B o m fun b k q => F b k + G k q := by
  have hne : a.shape ≠ c.shape := by
    rw [ha.1, hc.1]
    simp [hB]
  simp only [Tensor.add, zipWithB]
  rw [if_neg hne]
  simp only [ha.1, hc.1]
  have hb : broadcastRev [1, o, B] [m, o, 1] = some [m, o, B] := by
    simp [broadcastRev, hB, hm, hm.symm]
  simp only [List.reverse_cons, List.reverse_nil, List.nil_append, List.cons_append, hb]
  refine Ret.ok ⟨rfl, fun b k q => ?_⟩
  rw [get_ofFn _ (by simp)]
  have hk : (if o = 1 then 0 else (k : Nat)) = k := by split_ifs <;> omega
  simp only [bcastIdx, List.length_cons, List.length_nil, Nat.sub_self, List.drop_zero, List.zipWith_cons_cons, List.zipWith_nil_right, if_true, hB, hm, if_false, hk]
  have h1 := ha.2 b k 0
  have h2 := hc.2 0 k q
  simp only [Fin.val_zero] at h1 h2
  rw [h1, h2]

theorem add3_right {a c : Tensor ℝ} {R o m : Nat} {F : Fin o → Fin m → ℝ} {G : Fin R → Fin o → ℝ} (hR : R ≠ 1) (hm : m ≠ 1) (ha : IsMat a 1 o m fun _ => F)
    (hc : IsMat c R o 1 fun b k _ => G b k) : Ret (a.add c) fun t => IsMat t R o m fun b k q => F k q + G b k := by
  have hne : a.shape ≠ c.shape := by
    rw [ha.1, hc.1]
    simp [hR.symm]
  simp only [Tensor.add, zipWithB]
  rw [if_neg hne]
  simp only [ha.1, hc.1]
  have hb : broadcastRev [m, o, 1] [1, o, R] = some [m, o, R] := by
    simp [broadcastRev, hR.symm, hm]
  simp only [List.reverse_cons, List.reverse_nil, List.nil_append, List.cons_append, hb]
  refine Ret.ok ⟨rfl, fun b k q => ?_⟩
  rw [get_ofFn _ (by simp)]
  have hk : (if o = 1 then 0 else (k : Nat)) = k := by split_ifs <;> omega
  simp only [bcastIdx, List.length_cons, List.length_nil, Nat.sub_self, List.drop_zero, List.zipWith_cons_cons, List.zipWith_nil_right, if_true, hR, hm, if_false, hk]
  have h1 := ha.2 0 k q
  have h2 := hc.2 b k 0
  simp only [Fin.val_zero] at h1 h2
  rw [h1, h2]

end NNJ
