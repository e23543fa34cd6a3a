import Verif.Proofs.DerivL2
import Mathlib.Analysis.Calculus.Deriv.Abs

/-! When a diagonal matrix is the derivative of an elementwise map, and the single layers as networks. -/

namespace NNJ
open Matrix

variable {n k : Nat}

/-- an elementwise map has a diagonal derivative exactly if each entry has its derivative -/
theorem hasFDerivAt_diagonal_iff (f : ℝ → ℝ) (d x : Fin n → ℝ) :
    HasFDerivAt (fun (y : Fin n → ℝ) i => f (y i)) (linMap (diagonal d)) x ↔ ∀ i, HasDerivAt f (d i) (x i) := by
  constructor
  · intro h i
    have h1 := (hasFDerivAt_pi'.1 h) i
    have h2 : HasFDerivAt (fun a : ℝ => Function.update x i a) (ContinuousLinearMap.pi (Pi.single i (ContinuousLinearMap.id ℝ ℝ))) (x i) :=
      hasFDerivAt_update x (x i)
    have e : Function.update x i (x i) = x := Function.update_eq_self i x
    have h1' : HasFDerivAt (fun y : Fin n → ℝ => f (y i))
      ((ContinuousLinearMap.proj (R := ℝ) (φ := fun _ : Fin n => ℝ) i).comp (linMap (diagonal d))) (Function.update x i (x i)) := by
      rw [e]; exact h1
    have h3 := HasFDerivAt.comp (g := fun y : Fin n → ℝ => f (y i)) (f := fun a : ℝ => Function.update x i a) (x i) h1' h2
    have h4 : HasFDerivAt f _ (x i) := h3.congr_of_eventuallyEq (Filter.Eventually.of_forall fun a => by simp)
    have h5 := h4.hasDerivAt
    refine h5.congr_deriv ?_
    simp [mulVec_diagonal]
  · intro h
    rw [hasFDerivAt_pi']
    intro i
    have := (h i).hasFDerivAt.comp x (ContinuousLinearMap.proj (R := ℝ) (φ := fun _ : Fin n => ℝ) i).hasFDerivAt
    refine HasFDerivAt.congr_fderiv this ?_
    refine ContinuousLinearMap.ext fun z => ?_
    simp [mulVec_diagonal, mul_comm]

/-- `linMap` determines its matrix -/
theorem linMap_injective {A D : Matrix (Fin k) (Fin n) ℝ} (h : linMap A = linMap D) : A = D := by
  refine ext_of_mulVec_single fun i => ?_
  have := DFunLike.congr_fun h (Pi.single i 1)
  simpa using this

theorem linMap_unique {f : (Fin n → ℝ) → Fin k → ℝ} {A D : Matrix (Fin k) (Fin n) ℝ} {x : Fin n → ℝ}
    (hA : HasFDerivAt f (linMap A) x) (hD : HasFDerivAt f (linMap D) x) : A = D := linMap_injective (hA.unique hD)

/-- distance of nnj's L2Norm matrix to the derivative -/
theorem l2_distance {eps : ℝ} {x : Fin n → ℝ} (h : norm2 x ≠ 0) (he : norm2 x + eps ≠ 0) (i j : Fin n) :
    (l2Sem eps n).J (fun _ => 0) x i j - l2Deriv eps x i j = eps * (x i * x j) / (norm2 x * (norm2 x + eps) ^ 3) := by
  simp only [l2Sem, Sem.leaf0, Sem.leaf, l2Deriv]
  field_simp
  ring

theorem relu_not_differentiable : ¬ ∃ d, HasDerivAt (Act.relu).fn d 0 := by
  rintro ⟨d, h⟩
  have e : Act.relu.fn = fun a => (|a| + a) / 2 := by
    funext a
    simp only [Act.fn]
    rcases le_total 0 a with h | h
    · rw [max_eq_left h, abs_of_nonneg h]; ring
    · rw [max_eq_right h, abs_of_nonpos h]; ring
  rw [e] at h
  have h1 : HasDerivAt (fun a : ℝ => 2 * ((|a| + a) / 2) - a) (2 * d - 1) 0 := (h.const_mul 2).sub (hasDerivAt_id 0)
  have h2 : HasDerivAt (fun a : ℝ => |a|) (2 * d - 1) 0 := h1.congr_of_eventuallyEq (Filter.Eventually.of_forall fun a => by ring)
  exact not_differentiableAt_abs_zero h2.differentiableAt

theorem truncExp_deriv_iff (t : ℝ) : HasDerivAt (Act.truncExp).fn ((Act.truncExp).deriv t) t ↔ |t| ≤ 15 := by
  constructor
  · intro h
    have h1 : HasDerivAt (Act.truncExp).fn (Real.exp t) t := Real.hasDerivAt_exp t
    have := h.unique h1
    simp only [Act.deriv, Real.exp_eq_exp] at this
    rw [← this, abs_le]
    exact ⟨le_max_left _ _, max_le (by norm_num) (min_le_left _ _)⟩
  · intro h; exact act_hasDerivAt .truncExp t h

/-- above the threshold Softplus is the identity -/
theorem softplus_above {b th t : ℝ} (h : th < t * b) : HasDerivAt (Act.softplus b th).fn 1 t := by
  refine (hasDerivAt_id t).congr_of_eventuallyEq ?_
  have : ∀ᶠ y in nhds t, th < y * b := continuousAt_const.eventually_lt (continuous_id.mul continuous_const).continuousAt h
  filter_upwards [this] with y hy
  simp [Act.fn, hy]

theorem softplus_gap {b th t : ℝ} (h : th < t * b) :
    1 - (Act.softplus b th).deriv t = 1 / (1 + Real.exp (b * t)) ∧ 0 < 1 / (1 + Real.exp (b * t)) ∧ 1 / (1 + Real.exp (b * t)) < Real.exp (-th) := by
  refine ⟨?_, by positivity, ?_⟩
  · simp only [Act.deriv]
    rw [Real.exp_neg]
    have := Real.exp_pos (b * t)
    field_simp
    ring
  · have h1 : Real.exp th < Real.exp (b * t) := Real.exp_lt_exp.2 (by rw [mul_comm]; exact h)
    rw [Real.exp_neg, one_div]
    exact inv_strictAnti₀ (Real.exp_pos _) (by linarith)

/-- a single activation as a network; it needs nothing from the state -/
theorem actNet_ok (a : Act) (id : Nat) {s : List Nat} (hs : size s = n) (hn : 0 < n) (st : Store ℝ) :
    (Net.act a id s n hs hn).Ok st := ⟨by simp [Net.ids], trivial⟩

theorem l2Net_ok (eps : ℝ) (id : Nat) {s : List Nat} (hs : size s = n) (hr : s.length ≤ 8) (hn : 0 < n) (st : Store ℝ) :
    (Net.l2norm id eps s n hs hr hn).Ok st :=
  ⟨by simp [Net.ids], trivial⟩

end NNJ
