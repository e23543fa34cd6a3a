import Verif.Spec.LogLik
import Verif.Proofs.Calls
import Verif.Proofs.DerivL2
import Mathlib.Analysis.SpecialFunctions.Log.Deriv
import Mathlib.Analysis.SpecialFunctions.ExpDeriv

/-! Lemmas for the likelihoods. -/

namespace NNJ
open Tensor Matrix LogLik

/-! ### calculus -/

theorem linForm_apply {n : Nat} (g v : Fin n → ℝ) : linForm g v = g ⬝ᵥ v := by
  simp [linForm, dotProduct]

theorem HasGrad.comp {n k : Nat} {l : (Fin k → ℝ) → ℝ} {f : (Fin n → ℝ) → Fin k → ℝ} {r : Fin k → ℝ} {J : Matrix (Fin k) (Fin n) ℝ}
    {x : Fin n → ℝ} (hl : HasGrad l r (f x)) (hf : HasFDerivAt f (linMap J) x) : HasGrad (fun z => l (f z)) (r ᵥ* J) x := by
  have := HasFDerivAt.comp (g := l) (f := f) x hl hf
  refine this.congr_fderiv ?_
  ext v
  simp only [ContinuousLinearMap.comp_apply, linForm_apply, linMap_apply]
  rw [dotProduct_mulVec]

theorem HasGrad.smul {n : Nat} {l : (Fin n → ℝ) → ℝ} {r x : Fin n → ℝ} (c : ℝ) (h : HasGrad l r x) :
    HasGrad (fun z => c * l z) (fun i => c * r i) x := by
  have := HasFDerivAt.const_mul h c
  refine this.congr_fderiv ?_
  ext v
  simp [linForm_apply, dotProduct, Finset.mul_sum, mul_assoc]

theorem HasGrad.sum {n B : Nat} {l : Fin B → (Fin n → ℝ) → ℝ} {r : Fin B → Fin n → ℝ} {x : Fin n → ℝ} (h : ∀ b, HasGrad (l b) (r b) x) :
    HasGrad (fun z => ∑ b, l b z) (fun i => ∑ b, r b i) x := by
  have := HasFDerivAt.fun_sum (u := Finset.univ) fun b _ => h b
  refine this.congr_fderiv ?_
  ext v
  simp only [_root_.sum_apply, linForm_apply, dotProduct, Finset.sum_mul]
  exact Finset.sum_comm

theorem HasGrad.unique {n : Nat} {l : (Fin n → ℝ) → ℝ} {r r' x : Fin n → ℝ} (h : HasGrad l r x) (h' : HasGrad l r' x) : r = r' := by
  have := HasFDerivAt.unique h h'
  funext i
  have := DFunLike.congr_fun this (Pi.single i 1)
  simpa [linForm_apply] using this

theorem gaussLL_grad {k : Nat} (y t : Fin k → ℝ) : HasGrad (fun y => gaussLL y t) (fun i => t i - y i) y := by
  have h : ∀ i, HasFDerivAt (fun y : Fin k → ℝ => (y i - t i) ^ 2) _ y := fun i => ((hasFDerivAt_apply (𝕜 := ℝ) i y).sub_const (t i)).pow 2
  have := (HasFDerivAt.fun_sum (u := Finset.univ) fun i _ => h i).const_mul (-(1 / 2 : ℝ))
  refine this.congr_fderiv ?_
  ext v
  simp only [_root_.smul_apply, _root_.sum_apply, linForm_apply, dotProduct, smul_eq_mul, Finset.mul_sum,
    ContinuousLinearMap.proj_apply]
  refine Finset.sum_congr rfl fun i _ => ?_
  simp
  ring

theorem one_sub_sigma (a : ℝ) : 1 - sigma a = 1 / (1 + Real.exp a) := by
  have := Real.exp_pos a
  rw [sigma]; field_simp; ring

theorem log_sigma (a : ℝ) : Real.log (sigma a) = a - Real.log (Real.exp a + Real.exp 0) := by
  have := Real.exp_pos a
  rw [sigma, Real.log_div this.ne' (by positivity), Real.log_exp, Real.exp_zero, add_comm]

theorem log_one_sub_sigma (a : ℝ) : Real.log (1 - sigma a) = 0 - Real.log (Real.exp a + Real.exp 0) := by
  rw [one_sub_sigma, Real.log_div one_ne_zero (by have := Real.exp_pos a; positivity), Real.log_one, Real.exp_zero, add_comm]

theorem sigma_deriv (a : ℝ) : HasDerivAt sigma (sigma a - sigma a * sigma a) a := by
  have h : HasDerivAt (fun a => Real.exp a / (1 + Real.exp a)) _ a :=
    (Real.hasDerivAt_exp a).div ((Real.hasDerivAt_exp a).const_add 1) (by have := Real.exp_pos a; positivity)
  refine h.congr_deriv ?_
  have := Real.exp_pos a
  rw [sigma]; field_simp

theorem bin1_deriv (t a : ℝ) : HasDerivAt (fun a => t * Real.log (sigma a) + (1 - t) * Real.log (1 - sigma a)) (t - sigma a) a := by
  have hp := Real.exp_pos a
  have hs : sigma a ≠ 0 := by rw [sigma]; positivity
  have h1 : 1 - sigma a ≠ 0 := by rw [one_sub_sigma]; positivity
  have := (((sigma_deriv a).log hs).const_mul t).add ((((sigma_deriv a).const_sub 1).log h1).const_mul (1 - t))
  refine this.congr_deriv ?_
  field_simp
  ring

theorem binLL_grad {k : Nat} (y t : Fin k → ℝ) : HasGrad (fun y => binLL y t) (fun i => t i - sigma (y i)) y := by
  have h : ∀ i, HasFDerivAt (fun y : Fin k → ℝ => t i * Real.log (sigma (y i)) + (1 - t i) * Real.log (1 - sigma (y i))) _ y :=
    fun i => HasDerivAt.comp_hasFDerivAt (h₂ := fun a => t i * Real.log (sigma a) + (1 - t i) * Real.log (1 - sigma a)) (f := fun y : Fin k → ℝ => y i) y
      (bin1_deriv (t i) (y i)) (hasFDerivAt_apply (𝕜 := ℝ) i y)
  have := HasFDerivAt.fun_sum (u := Finset.univ) fun i _ => h i
  refine this.congr_fderiv ?_
  ext v
  simp [linForm_apply, dotProduct]

/-- derivative of a function applied to every entry -/
theorem pi_deriv {k : Nat} {f : Fin k → ℝ → ℝ} {d y : Fin k → ℝ} (h : ∀ i, HasDerivAt (f i) (d i) (y i)) :
    HasFDerivAt (fun (y : Fin k → ℝ) i => f i (y i)) (linMap (diagonal d)) y := by
  rw [hasFDerivAt_pi']
  intro i
  have := HasDerivAt.comp_hasFDerivAt (h₂ := f i) (f := fun y : Fin k → ℝ => y i) y (h i) (hasFDerivAt_apply (𝕜 := ℝ) i y)
  refine this.congr_fderiv ?_
  ext v
  simp [linMap_apply, mulVec_diagonal]

theorem gaussLL_hess {k : Nat} (y t : Fin k → ℝ) : HasHess (fun y => gaussLL y t) (diagonal fun _ => -1) y :=
  ⟨fun y i => t i - y i, fun z => gaussLL_grad z t, pi_deriv fun i => (hasDerivAt_id (y i)).const_sub (t i)⟩

theorem binLL_hess {k : Nat} (y t : Fin k → ℝ) :
    HasHess (fun y => binLL y t) (diagonal fun i => sigma (y i) * sigma (y i) - sigma (y i)) y :=
  ⟨fun y i => t i - sigma (y i), fun z => binLL_grad z t, pi_deriv fun i => ((sigma_deriv (y i)).const_sub (t i)).congr_deriv (by ring)⟩

section
variable {c k : Nat}

theorem mem_classRow {i j : Fin k} : j ∈ classRow c i ↔ j.val / c = i.val / c := by simp [classRow]
theorem row_eq {i j : Fin k} (h : j ∈ classRow c i) : classRow c j = classRow c i := by
  ext l; rw [mem_classRow, mem_classRow, mem_classRow.1 h]
theorem self_mem_classRow (i : Fin k) : i ∈ classRow c i := mem_classRow.2 rfl

theorem rowSum_pos (y : Fin k → ℝ) (i : Fin k) : 0 < ∑ j ∈ classRow c i, Real.exp (y j) :=
  Finset.sum_pos (fun _ _ => Real.exp_pos _) ⟨i, self_mem_classRow i⟩

theorem softmax_pos (y : Fin k → ℝ) (i : Fin k) : 0 < softmax c y i := div_pos (Real.exp_pos _) (rowSum_pos y i)

theorem softmax_sum (y : Fin k → ℝ) (i : Fin k) : ∑ j ∈ classRow c i, softmax c y j = 1 := by
  have h : ∀ j ∈ classRow c i, softmax c y j = Real.exp (y j) / ∑ l ∈ classRow c i, Real.exp (y l) := fun j hj => by rw [softmax, row_eq hj]
  simp only [div_eq_mul_inv] at h
  rw [Finset.sum_congr rfl h, ← Finset.sum_mul, mul_inv_cancel₀ (rowSum_pos y i).ne']

theorem log_softmax (y : Fin k → ℝ) (i : Fin k) : Real.log (softmax c y i) = y i - Real.log (∑ j ∈ classRow c i, Real.exp (y j)) := by
  rw [softmax, Real.log_div (Real.exp_pos _).ne' (rowSum_pos y i).ne', Real.log_exp]

theorem logSoftmax_deriv (y : Fin k → ℝ) (i : Fin k) :
    HasGrad (fun y => Real.log (softmax c y i)) (fun m => (if m = i then 1 else 0) - if m ∈ classRow c i then softmax c y m else 0) y := by
  simp only [log_softmax]
  have h1 := HasFDerivAt.fun_sum (u := classRow c i) fun j _ => (hasFDerivAt_apply (𝕜 := ℝ) j y).exp
  have h2 := (hasFDerivAt_apply (𝕜 := ℝ) i y).sub (h1.log (rowSum_pos y i).ne')
  refine h2.congr_fderiv ?_
  ext v
  simp only [_root_.sub_apply, ContinuousLinearMap.proj_apply, _root_.smul_apply, _root_.sum_apply, smul_eq_mul,
    linForm_apply, dotProduct, sub_mul, Finset.sum_sub_distrib, ite_mul, one_mul, zero_mul, Finset.sum_ite_eq', Finset.mem_univ, if_true]
  congr 1
  rw [← Finset.sum_filter, show Finset.univ.filter (fun m => m ∈ classRow c i) = classRow c i by ext; simp, Finset.mul_sum]
  refine Finset.sum_congr rfl fun m hm => ?_
  rw [softmax, row_eq hm]
  ring

theorem classLL_grad (y t : Fin k → ℝ) :
    HasGrad (fun y => classLL c y t) (fun m => t m - (∑ i ∈ classRow c m, t i) * softmax c y m) y := by
  have h : HasGrad (fun y => classLL c y t) _ y := HasGrad.sum fun i => (logSoftmax_deriv (c := c) y i).smul (t i)
  refine HasFDerivAt.congr_fderiv h ?_
  congr 1
  funext m
  simp only [mul_sub, Finset.sum_sub_distrib, mul_ite, mul_one, mul_zero, Finset.sum_ite_eq, Finset.mem_univ, if_true]
  congr 1
  rw [← Finset.sum_filter, Finset.sum_mul]
  refine Finset.sum_congr ?_ fun _ _ => rfl
  ext i
  simp [mem_classRow, eq_comm]

theorem softmax_deriv (y : Fin k → ℝ) (i : Fin k) :
    HasGrad (fun y => softmax c y i) (fun m => (if m = i then softmax c y i else 0) - if m ∈ classRow c i then softmax c y i * softmax c y m else 0) y := by
  have h := HasFDerivAt.exp (logSoftmax_deriv (c := c) y i)
  have e : (fun y : Fin k → ℝ => Real.exp (Real.log (softmax c y i))) = fun y => softmax c y i := by
    funext z; rw [Real.exp_log (softmax_pos z i)]
  rw [e] at h
  refine h.congr_fderiv ?_
  rw [Real.exp_log (softmax_pos y i)]
  ext v
  simp only [_root_.smul_apply, linForm_apply, dotProduct, smul_eq_mul, Finset.mul_sum]
  refine Finset.sum_congr rfl fun m _ => ?_
  split_ifs <;> ring

/-- the Hessian of the categorical log-likelihood in the logits -/
noncomputable def classH (c : Nat) (y : Fin k → ℝ) : Matrix (Fin k) (Fin k) ℝ :=
  fun i j => (if j ∈ classRow c i then softmax c y i * softmax c y j else 0) - if j = i then softmax c y i else 0

theorem classLL_hess (y t : Fin k → ℝ) (ht : ∀ i, ∑ j ∈ classRow c i, t j = 1) : HasHess (fun y => classLL c y t) (classH c y) y := by
  refine ⟨fun y i => t i - softmax c y i, fun z => ?_, ?_⟩
  · have := classLL_grad (c := c) z t
    simpa only [ht, one_mul] using this
  · rw [hasFDerivAt_pi']
    intro i
    have := HasFDerivAt.const_sub (softmax_deriv (c := c) y i) (t i)
    refine this.congr_fderiv ?_
    ext v
    simp only [_root_.neg_apply, linForm_apply, dotProduct, ContinuousLinearMap.comp_apply, ContinuousLinearMap.proj_apply, linMap_apply, mulVec, classH]
    rw [← Finset.sum_neg_distrib]
    exact Finset.sum_congr rfl fun m _ => by ring

theorem classRow_univ (i : Fin c) : classRow c i = Finset.univ := by
  ext j; simp [mem_classRow, Nat.div_eq_of_lt i.2, Nat.div_eq_of_lt j.2]

/-- the variance of `v` under the class probabilities is not negative -/
theorem classH_nonpos (y v : Fin c → ℝ) : v ⬝ᵥ (classH c y *ᵥ v) ≤ 0 := by
  rcases Nat.eq_zero_or_pos c with rfl | hc
  · simp [dotProduct]
  have hs := softmax_sum (c := c) y ⟨0, hc⟩
  rw [classRow_univ] at hs
  have e : v ⬝ᵥ (classH c y *ᵥ v) = -∑ i, softmax c y i * (v i - ∑ j, softmax c y j * v j) ^ 2 := by
    set m := ∑ j, softmax c y j * v j with hm
    have e1 : ∀ i, (classH c y *ᵥ v) i = softmax c y i * m - softmax c y i * v i := fun i => by
      simp only [classH, classRow_univ, Finset.mem_univ, if_true, mulVec, dotProduct, sub_mul, ite_mul, zero_mul, Finset.sum_sub_distrib, Finset.sum_ite_eq']
      rw [hm, Finset.mul_sum]
      congr 1
      exact Finset.sum_congr rfl fun _ _ => by ring
    have e2 : ∑ i, softmax c y i * (v i - m) ^ 2 = ∑ i, softmax c y i * v i * v i - m * m := by
      have : ∀ i, softmax c y i * (v i - m) ^ 2 = softmax c y i * v i * v i - 2 * m * (softmax c y i * v i) + m * m * softmax c y i := fun i => by ring
      simp only [this, Finset.sum_add_distrib, Finset.sum_sub_distrib, ← Finset.mul_sum, ← hm, hs]
      ring
    rw [e2]
    simp only [dotProduct, e1, mul_sub, Finset.sum_sub_distrib]
    have e3 : ∑ i, v i * (softmax c y i * m) = m * m := by
      nth_rw 2 [hm]
      rw [Finset.mul_sum]
      exact Finset.sum_congr rfl fun _ _ => by ring
    rw [e3]
    have e4 : ∑ i, v i * (softmax c y i * v i) = ∑ i, softmax c y i * v i * v i := Finset.sum_congr rfl fun _ _ => by ring
    rw [e4]; ring
  rw [e, neg_nonpos]
  exact Finset.sum_nonneg fun i _ => mul_nonneg (softmax_pos y i).le (sq_nonneg _)

end

end NNJ
