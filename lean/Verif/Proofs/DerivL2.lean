import Verif.Proofs.DerivSpatial

/-! The derivative of `x / (|x| + eps)`, and where nnj's matrix is that derivative. -/

namespace NNJ
open Matrix

variable {n : Nat}

/-- the derivative of `x / (|x| + eps)` at a nonzero `x` -/
noncomputable def l2Deriv (eps : ℝ) (x : Fin n → ℝ) : Matrix (Fin n) (Fin n) ℝ := fun i j =>
  (if i = j then 1 else 0) / (norm2 x + eps) - x i * x j / (norm2 x * (norm2 x + eps) ^ 2)

theorem sumsq_nonneg (x : Fin n → ℝ) : 0 ≤ ∑ i, x i * x i := Finset.sum_nonneg fun i _ => mul_self_nonneg (x i)

theorem norm2_sq (x : Fin n → ℝ) : norm2 x * norm2 x = ∑ i, x i * x i := Real.mul_self_sqrt (sumsq_nonneg x)

theorem norm2_nonneg (x : Fin n → ℝ) : 0 ≤ norm2 x := Real.sqrt_nonneg _

theorem norm2_eq_zero {x : Fin n → ℝ} : norm2 x = 0 ↔ x = 0 := by
  rw [norm2, Real.sqrt_eq_zero (sumsq_nonneg x), Finset.sum_eq_zero_iff_of_nonneg fun i _ => mul_self_nonneg (x i)]
  simp [funext_iff]

theorem hasFDerivAt_norm2 {x : Fin n → ℝ} (h : norm2 x ≠ 0) :
    HasFDerivAt norm2 (∑ i, (x i / norm2 x) • ContinuousLinearMap.proj (R := ℝ) (φ := fun _ : Fin n => ℝ) i) x := by
  have h1 : HasFDerivAt (fun y : Fin n → ℝ => ∑ i, y i * y i) (∑ i, (x i • ContinuousLinearMap.proj (R := ℝ) (φ := fun _ : Fin n => ℝ) i +
      x i • ContinuousLinearMap.proj (R := ℝ) (φ := fun _ : Fin n => ℝ) i)) x := HasFDerivAt.fun_sum fun i _ =>
    (ContinuousLinearMap.proj (R := ℝ) (φ := fun _ : Fin n => ℝ) i).hasFDerivAt.mul (ContinuousLinearMap.proj (R := ℝ) (φ := fun _ : Fin n => ℝ) i).hasFDerivAt
  have h0 : ∑ i, x i * x i ≠ 0 := by rw [← norm2_sq]; exact mul_ne_zero h h
  have h2 := h1.sqrt h0
  refine HasFDerivAt.congr_fderiv h2 ?_
  refine ContinuousLinearMap.ext fun z => ?_
  simp only [_root_.smul_apply, _root_.sum_apply, _root_.add_apply, ContinuousLinearMap.proj_apply, smul_eq_mul]
  rw [Finset.mul_sum]
  refine Finset.sum_congr rfl fun i _ => ?_
  change 1 / (2 * norm2 x) * _ = _
  field_simp
  ring

theorem l2_hasFDerivAt (eps : ℝ) {x : Fin n → ℝ} (h : norm2 x ≠ 0) (he : norm2 x + eps ≠ 0) :
    HasFDerivAt (fun (x : Fin n → ℝ) i => 1 / (norm2 x + eps) * x i) (linMap (l2Deriv eps x)) x := by
  rw [hasFDerivAt_pi']
  intro i
  have h1 := ((hasFDerivAt_norm2 h).add_const eps)
  have h2 := HasFDerivAt.comp (g := fun y : ℝ => y⁻¹) (f := fun y : Fin n → ℝ => norm2 y + eps) x (hasDerivAt_inv he).hasFDerivAt h1
  have h3 := h2.mul (ContinuousLinearMap.proj (R := ℝ) (φ := fun _ : Fin n => ℝ) i).hasFDerivAt
  simp only [one_div]
  refine HasFDerivAt.congr_fderiv h3 ?_
  refine ContinuousLinearMap.ext fun z => ?_
  simp only [_root_.smul_apply, _root_.sum_apply, _root_.add_apply, ContinuousLinearMap.proj_apply, smul_eq_mul, ContinuousLinearMap.comp_apply,
    ContinuousLinearMap.toSpanSingleton_apply, linMap_apply]
  have : (l2Deriv eps x *ᵥ z) i = z i / (norm2 x + eps) - ∑ j, x i * x j / (norm2 x * (norm2 x + eps) ^ 2) * z j := by
    simp only [mulVec, dotProduct, l2Deriv, sub_mul, Finset.sum_sub_distrib]
    congr 1
    simp [ite_div, ite_mul]
    ring
  rw [this, Finset.sum_mul, Finset.mul_sum, sub_eq_add_neg, ← Finset.sum_neg_distrib]
  congr 1
  · show (norm2 x + eps)⁻¹ * z i = _; ring
  · refine Finset.sum_congr rfl fun j _ => ?_
    field_simp

theorem continuous_norm2 : Continuous (norm2 : (Fin n → ℝ) → ℝ) := by
  unfold norm2
  fun_prop

theorem l2_hasFDerivAt_zero (eps : ℝ) (he : eps ≠ 0) :
    HasFDerivAt (fun (x : Fin n → ℝ) i => 1 / (norm2 x + eps) * x i) (linMap ((1 / eps) • (1 : Matrix (Fin n) (Fin n) ℝ))) 0 := by
  rw [hasFDerivAt_pi']
  intro i
  have hn0 : norm2 (0 : Fin n → ℝ) = 0 := norm2_eq_zero.2 rfl
  have hc : Filter.Tendsto (fun y : Fin n → ℝ => 1 / (norm2 y + eps) - 1 / eps) (nhds 0) (nhds 0) := by
    have : ContinuousAt (fun y : Fin n → ℝ => 1 / (norm2 y + eps) - 1 / eps) 0 := by
      refine (ContinuousAt.div continuousAt_const (continuous_norm2.continuousAt.add continuousAt_const) ?_).sub continuousAt_const
      simpa [hn0] using he
    have h := this.tendsto
    simpa [hn0] using h
  rw [hasFDerivAt_iff_isLittleO_nhds_zero]
  have e : ∀ y : Fin n → ℝ, 1 / (norm2 (0 + y) + eps) * (0 + y) i - 1 / (norm2 (0 : Fin n → ℝ) + eps) * (0 : Fin n → ℝ) i -
      ((ContinuousLinearMap.proj (R := ℝ) (φ := fun _ : Fin n => ℝ) i).comp (linMap ((1 / eps) • (1 : Matrix (Fin n) (Fin n) ℝ)))) y =
      (1 / (norm2 y + eps) - 1 / eps) * y i := by
    intro y
    rw [ContinuousLinearMap.comp_apply, linMap_apply, ContinuousLinearMap.proj_apply, zero_add, smul_mulVec, one_mulVec]
    simp
    ring
  refine Asymptotics.IsLittleO.congr_left ?_ fun y => (e y).symm
  have h1 : (fun y : Fin n → ℝ => 1 / (norm2 y + eps) - 1 / eps) =o[nhds 0] (fun _ => (1 : ℝ)) :=
    (Asymptotics.isLittleO_one_iff ℝ).2 hc
  have h2 : (fun y : Fin n → ℝ => y i) =O[nhds 0] (fun y => y) :=
    Asymptotics.IsBigO.of_bound 1 (Filter.Eventually.of_forall fun y => by rw [one_mul]; exact norm_le_pi_norm y i)
  have := h1.mul_isBigO h2.norm_right
  exact this.norm_right.congr_right (fun y => by simp) |>.of_norm_right

theorem l2Sem_diff (eps : ℝ) : (l2Sem eps n).Diff := by
  refine Sem.Diff.leaf0 fun x hx => ?_
  rcases hx with ⟨rfl, h⟩ | ⟨he, h⟩
  · refine HasFDerivAt.congr_fderiv (l2_hasFDerivAt 0 h (by simpa using h)) ?_
    congr 1
    ext i j
    simp only [l2Deriv, add_zero]
    field_simp
  · have hx0 : x = 0 := norm2_eq_zero.1 h
    subst hx0
    refine HasFDerivAt.congr_fderiv (l2_hasFDerivAt_zero eps he) ?_
    congr 1
    ext i j
    simp [h, Matrix.one_apply]

mutual
theorem Net.diff : {s s' : List Nat} → {n k p : Nat} → (N : Net s n s' k p) → N.sem.Diff
  | _, _, _, _, _, .linear _ _ bId i o _ _ => by simp only [Net.sem]; exact linearSem_diff bId i o
  | _, _, _, _, _, .act a _ _ _ _ _ => by simp only [Net.sem]; exact actSem_diff a
  | _, _, _, _, _, .flatten _ _ _ _ _ => by simp only [Net.sem]; exact reshapeSem_diff
  | _, _, _, _, _, .reshape _ _ _ _ _ _ _ _ _ => by simp only [Net.sem]; exact reshapeSem_diff
  | _, _, _, _, _, .l2norm _ eps _ _ _ _ _ => by simp only [Net.sem]; exact l2Sem_diff eps
  | _, _, _, _, _, .conv _ _ bId g => by simp only [Net.sem]; exact convSem_diff bId
  | _, _, _, _, _, .upsample _ _ _ _ _ _ _ _ _ => by simp only [Net.sem]; exact upSem_diff
  | _, _, _, _, _, .maxpool _ g => by simp only [Net.sem]; exact poolSem_diff g.fits.toPoolSizes
  | _, _, _, _, _, .seq id c => by simp only [Net.sem]; exact c.diff
  | _, _, _, _, _, .skip id fid ch => by simp only [Net.sem]; exact ch.diff.skip
theorem Chain.diff : {s s' : List Nat} → {n k p l : Nat} → (c : Chain s n s' k p l) → c.sem.Diff
  | _, _, _, _, _, _, .nil _ _ _ _ => by simp only [Chain.sem]; exact Sem.Diff.id
  | _, _, _, _, _, _, .snoc c m => by simp only [Chain.sem]; exact c.diff.comp m.diff
end

end NNJ
