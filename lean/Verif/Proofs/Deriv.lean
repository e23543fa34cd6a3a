import Verif.Proofs.NetFacts
import Mathlib.Analysis.Calculus.FDeriv.Prod
import Mathlib.Analysis.Calculus.FDeriv.Comp
import Mathlib.Analysis.Calculus.FDeriv.Add
import Mathlib.Analysis.Calculus.FDeriv.Mul
import Mathlib.Analysis.Calculus.FDeriv.Pi
import Mathlib.Analysis.SpecialFunctions.Trigonometric.Deriv
import Mathlib.Analysis.SpecialFunctions.Trigonometric.DerivHyp
import Mathlib.Analysis.SpecialFunctions.ExpDeriv
import Mathlib.Analysis.SpecialFunctions.Log.Deriv
import Mathlib.Analysis.SpecialFunctions.Sqrt

/-! The matrices `J`, `JW` are derivatives. -/

namespace NNJ
open Matrix

variable {n l k p q : Nat}

@[simp] theorem linMap_apply (J : Matrix (Fin k) (Fin n) ℝ) (v : Fin n → ℝ) : linMap J v = J *ᵥ v := rfl

/-- joint derivative in weights and input -/
noncomputable def jointMap (JW : Matrix (Fin k) (Fin p) ℝ) (J : Matrix (Fin k) (Fin n) ℝ) :
    ((Fin p → ℝ) × (Fin n → ℝ)) →L[ℝ] (Fin k → ℝ) :=
  (linMap JW).comp (ContinuousLinearMap.fst ℝ _ _) + (linMap J).comp (ContinuousLinearMap.snd ℝ _ _)

@[simp] theorem jointMap_apply (JW : Matrix (Fin k) (Fin p) ℝ) (J : Matrix (Fin k) (Fin n) ℝ) (z) :
    jointMap JW J z = JW *ᵥ z.1 + J *ᵥ z.2 := rfl

def Sem.DiffAt (S : Sem n k p) (w : Fin p → ℝ) (x : Fin n → ℝ) : Prop :=
  HasFDerivAt (fun z : (Fin p → ℝ) × (Fin n → ℝ) => S.f z.1 z.2) (jointMap (S.JW w x) (S.J w x)) (w, x)

def Sem.Diff (S : Sem n k p) : Prop := ∀ w x, S.smooth w x → S.DiffAt w x

theorem Sem.DiffAt.input {S : Sem n k p} {w x} (h : S.DiffAt w x) : HasFDerivAt (fun x => S.f w x) (linMap (S.J w x)) x := by
  have h2 : HasFDerivAt (fun x : Fin n → ℝ => (w, x)) (ContinuousLinearMap.inr ℝ (Fin p → ℝ) (Fin n → ℝ)) x := hasFDerivAt_prodMk_right w x
  have := HasFDerivAt.comp (f := fun x : Fin n → ℝ => (w, x)) (g := fun z : (Fin p → ℝ) × (Fin n → ℝ) => S.f z.1 z.2) x h h2
  refine this.congr_fderiv ?_
  ext v
  simp

theorem Sem.DiffAt.weight {S : Sem n k p} {w x} (h : S.DiffAt w x) : HasFDerivAt (fun w => S.f w x) (linMap (S.JW w x)) w := by
  have h2 : HasFDerivAt (fun w : Fin p → ℝ => (w, x)) (ContinuousLinearMap.inl ℝ (Fin p → ℝ) (Fin n → ℝ)) w := hasFDerivAt_prodMk_left w x
  have := HasFDerivAt.comp (f := fun w : Fin p → ℝ => (w, x)) (g := fun z : (Fin p → ℝ) × (Fin n → ℝ) => S.f z.1 z.2) w h h2
  refine this.congr_fderiv ?_
  ext v
  simp

noncomputable def wlL (p q : Nat) : (Fin (p + q) → ℝ) →L[ℝ] (Fin p → ℝ) := ContinuousLinearMap.pi fun i => ContinuousLinearMap.proj (Fin.castAdd q i)
noncomputable def wrL (p q : Nat) : (Fin (p + q) → ℝ) →L[ℝ] (Fin q → ℝ) := ContinuousLinearMap.pi fun i => ContinuousLinearMap.proj (Fin.natAdd p i)
theorem wlL_apply (w : Fin (p + q) → ℝ) : wlL p q w = wl w := rfl
theorem wrL_apply (w : Fin (p + q) → ℝ) : wrL p q w = wr w := rfl

theorem Sem.DiffAt.comp {S1 : Sem n l p} {S2 : Sem l k q} {w : Fin (p + q) → ℝ} {x}
    (h1 : S1.DiffAt (wl w) x) (h2 : S2.DiffAt (wr w) (S1.f (wl w) x)) : (S1.comp S2).DiffAt w x := by
  have g1 : HasFDerivAt (fun z : (Fin (p + q) → ℝ) × (Fin n → ℝ) => (wl z.1, z.2))
      (((wlL p q).comp (ContinuousLinearMap.fst ℝ _ _)).prod (ContinuousLinearMap.snd ℝ _ _)) (w, x) :=
    ((((wlL p q).comp (ContinuousLinearMap.fst ℝ _ _)).prod (ContinuousLinearMap.snd ℝ _ _) :
      ((Fin (p + q) → ℝ) × (Fin n → ℝ)) →L[ℝ] _)).hasFDerivAt
  have f1 := HasFDerivAt.comp (f := fun z : (Fin (p + q) → ℝ) × (Fin n → ℝ) => (wl z.1, z.2)) (w, x) (g := fun z : (Fin p → ℝ) × (Fin n → ℝ) => S1.f z.1 z.2) h1 g1
  have g2 : HasFDerivAt (fun z : (Fin (p + q) → ℝ) × (Fin n → ℝ) => wr z.1)
      ((wrL p q).comp (ContinuousLinearMap.fst ℝ _ _)) (w, x) :=
    ((wrL p q).comp (ContinuousLinearMap.fst ℝ (Fin (p + q) → ℝ) (Fin n → ℝ))).hasFDerivAt
  have f2 := HasFDerivAt.comp (f := fun z : (Fin (p + q) → ℝ) × (Fin n → ℝ) => (wr z.1, S1.f (wl z.1) z.2)) (w, x)
    (g := fun z : (Fin q → ℝ) × (Fin l → ℝ) => S2.f z.1 z.2) h2 (g2.prodMk f1)
  refine HasFDerivAt.congr_fderiv f2 ?_
  ext z i
  · simp only [Sem.comp, ContinuousLinearMap.comp_apply, ContinuousLinearMap.prod_apply, jointMap_apply, ContinuousLinearMap.inl_apply,
      ContinuousLinearMap.coe_fst', ContinuousLinearMap.coe_snd', wlL_apply, wrL_apply, mulVec_zero, add_zero, hcat_mulVec, ← mulVec_mulVec]
    rw [add_comm]
  · simp only [Sem.comp, ContinuousLinearMap.comp_apply, ContinuousLinearMap.prod_apply, jointMap_apply, ContinuousLinearMap.inr_apply,
      ContinuousLinearMap.coe_fst', ContinuousLinearMap.coe_snd', wlL_apply, wrL_apply, mulVec_zero, zero_add, ← mulVec_mulVec]
    simp [show wl (0 : Fin (p + q) → ℝ) = 0 from rfl, show wr (0 : Fin (p + q) → ℝ) = 0 from rfl]

theorem Sem.Diff.comp {S1 : Sem n l p} {S2 : Sem l k q} (h1 : S1.Diff) (h2 : S2.Diff) : (S1.comp S2).Diff :=
  fun _ _ h => (h1 _ _ h.1).comp (h2 _ _ h.2)

theorem Sem.Diff.skip {S : Sem n k p} (h : S.Diff) : S.skip.Diff := by
  intro w x hs
  have h1 := h w x hs
  rw [Sem.DiffAt] at *
  rw [hasFDerivAt_pi']
  intro i
  refine Fin.addCases (fun i => ?_) (fun i => ?_) i
  · simp only [Sem.skip, Fin.append_left]
    refine HasFDerivAt.congr_fderiv (((ContinuousLinearMap.proj i).comp (ContinuousLinearMap.snd ℝ (Fin p → ℝ) (Fin n → ℝ)) : _ →L[ℝ] ℝ)).hasFDerivAt ?_
    ext z
    · simp [vcat_mulVec, Fin.append_left]
    · simp [vcat_mulVec, Fin.append_left]
  · simp only [Sem.skip, Fin.append_right]
    rw [hasFDerivAt_pi'] at h1
    refine HasFDerivAt.congr_fderiv (h1 i) ?_
    ext z
    · simp [vcat_mulVec, Fin.append_right]
    · simp [vcat_mulVec, Fin.append_right]

theorem Sem.Diff.id : (Sem.id n).Diff := by
  intro w x _
  refine HasFDerivAt.congr_fderiv (ContinuousLinearMap.snd ℝ (Fin 0 → ℝ) (Fin n → ℝ)).hasFDerivAt ?_
  ext z
  · simp [Sem.id]
  · simp [Sem.id]

/-- a layer without parameters -/
theorem Sem.Diff.leaf0 {f : (Fin n → ℝ) → Fin k → ℝ} {J : (Fin n → ℝ) → Matrix (Fin k) (Fin n) ℝ} {smooth : (Fin n → ℝ) → Prop}
    (h : ∀ x, smooth x → HasFDerivAt f (linMap (J x)) x) : (Sem.leaf0 f J smooth).Diff := by
  intro w x hs
  have := HasFDerivAt.comp (w, x) (h x hs) (ContinuousLinearMap.snd ℝ (Fin 0 → ℝ) (Fin n → ℝ)).hasFDerivAt
  refine HasFDerivAt.congr_fderiv this ?_
  ext z
  · simp [Sem.leaf0, Sem.leaf]
  · simp [Sem.leaf0, Sem.leaf]

theorem linearSem_diff (bId : Option Nat) (i o : Nat) : (linearSem bId i o).Diff := by
  intro w x _
  rw [Sem.DiffAt, hasFDerivAt_pi']
  intro c
  simp only [linearSem, Sem.leaf, linearF]
  have hsum : ∀ j ∈ (Finset.univ : Finset (Fin i)), HasFDerivAt (fun z : (Fin (o * i + biasLen bId o) → ℝ) × (Fin i → ℝ) =>
      z.1 (Fin.castAdd _ (finProdFinEquiv (c, j))) * z.2 j) _ (w, x) := fun j _ =>
    HasFDerivAt.mul ((ContinuousLinearMap.proj (R := ℝ) (φ := fun _ => ℝ) (Fin.castAdd (biasLen bId o) (finProdFinEquiv (c, j)))).comp
      (ContinuousLinearMap.fst ℝ (Fin (o * i + biasLen bId o) → ℝ) (Fin i → ℝ))).hasFDerivAt
      (((ContinuousLinearMap.proj (R := ℝ) (φ := fun _ => ℝ) j).comp
      (ContinuousLinearMap.snd ℝ (Fin (o * i + biasLen bId o) → ℝ) (Fin i → ℝ))).hasFDerivAt)
  have h1 := HasFDerivAt.fun_sum hsum
  have key : ∀ u : Fin (o * i) → ℝ, ∑ e : Fin (o * i), (if (finProdFinEquiv.symm e).1 = c then x (finProdFinEquiv.symm e).2 else 0) * u e =
      ∑ j, x j * u (finProdFinEquiv (c, j)) := by
    intro u
    rw [← finProdFinEquiv.sum_comp, Fintype.sum_prod_type, Finset.sum_eq_single c]
    · simp only [Equiv.symm_apply_apply, if_true]
    · intro a _ ha
      exact Finset.sum_eq_zero fun j _ => by simp only [Equiv.symm_apply_apply, if_neg ha, zero_mul]
    · simp
  have keyB : ∀ u : Fin (biasLen bId o) → ℝ, ∑ e : Fin (biasLen bId o), (if e.val = c.val then (1 : ℝ) else 0) * u e =
      if h : c.val < biasLen bId o then u ⟨c, h⟩ else 0 := by
    intro u
    by_cases h : c.val < biasLen bId o
    · rw [dif_pos h, Finset.sum_eq_single ⟨c, h⟩]
      · simp
      · intro e _ he
        rw [if_neg fun h' => he (Fin.ext h'), zero_mul]
      · simp
    · rw [dif_neg h]
      exact Finset.sum_eq_zero fun e _ => by rw [if_neg (by have := e.2; omega), zero_mul]
  have rhs : ∀ z : (Fin (o * i + biasLen bId o) → ℝ) × (Fin i → ℝ),
      (jointMap (hcat (fun k c => if (finProdFinEquiv.symm c).1 = k then x (finProdFinEquiv.symm c).2 else 0)
      (fun k c => if c.val = k.val then 1 else 0)) (fun k j => w (Fin.castAdd _ (finProdFinEquiv (k, j)))) z) c =
      ∑ j, x j * z.1 (Fin.castAdd _ (finProdFinEquiv (c, j))) +
        (if h : c.val < biasLen bId o then z.1 (Fin.natAdd _ ⟨c, h⟩) else 0) + ∑ j, w (Fin.castAdd _ (finProdFinEquiv (c, j))) * z.2 j := by
    intro z
    refine Eq.trans (congrFun (jointMap_apply _ _ _) c) ?_
    refine Eq.trans (congrFun (congrArg (· + _) (hcat_mulVec _ _ _)) c) ?_
    exact congrArg₂ (· + ·) (congrArg₂ (· + ·) (key (wl z.1)) (keyB (wr z.1))) rfl
  by_cases hb : c.val < biasLen bId o
  · simp only [hb, dif_pos]
    have h2 := ((ContinuousLinearMap.proj (R := ℝ) (φ := fun _ => ℝ) (Fin.natAdd (o * i) (⟨c, hb⟩ : Fin (biasLen bId o)))).comp
      (ContinuousLinearMap.fst ℝ (Fin (o * i + biasLen bId o) → ℝ) (Fin i → ℝ))).hasFDerivAt (x := (w, x))
    refine HasFDerivAt.congr_fderiv (h1.add h2) ?_
    refine ContinuousLinearMap.ext fun z => ?_
    refine Eq.trans ?_ (rhs z).symm
    simp only [hb, dif_pos, _root_.add_apply, _root_.sum_apply, _root_.smul_apply, ContinuousLinearMap.comp_apply,
      ContinuousLinearMap.proj_apply, ContinuousLinearMap.coe_fst', ContinuousLinearMap.coe_snd', smul_eq_mul, Finset.sum_add_distrib]
    ring
  · simp only [hb, dif_neg, not_false_eq_true, add_zero]
    refine HasFDerivAt.congr_fderiv h1 ?_
    refine ContinuousLinearMap.ext fun z => ?_
    refine Eq.trans ?_ (rhs z).symm
    simp only [hb, dif_neg, not_false_eq_true, _root_.add_apply, _root_.sum_apply, _root_.smul_apply, ContinuousLinearMap.comp_apply,
      ContinuousLinearMap.proj_apply, ContinuousLinearMap.coe_fst', ContinuousLinearMap.coe_snd', smul_eq_mul, Finset.sum_add_distrib]
    ring

theorem reshapeSem_diff : (reshapeSem n).Diff :=
  Sem.Diff.leaf0 fun x _ => HasFDerivAt.congr_fderiv (hasFDerivAt_id x) (by ext; simp)

/-! ### elementwise activations -/

theorem act_hasDerivAt (a : Act) (t : ℝ) (h : a.smoothAt t) : HasDerivAt a.fn (a.deriv t) t := by
  cases a with
  | relu =>
    simp only [Act.smoothAt] at h
    rcases lt_or_gt_of_ne h with h | h
    · have : Act.relu.deriv t = 0 := by simp [Act.deriv, not_lt.2 h.le]
      rw [this]
      refine (hasDerivAt_const t (0 : ℝ)).congr_of_eventuallyEq ?_
      filter_upwards [gt_mem_nhds h] with y hy
      simp [Act.fn, max_eq_right hy.le]
    · have : Act.relu.deriv t = 1 := by simp [Act.deriv, h]
      rw [this]
      refine (hasDerivAt_id t).congr_of_eventuallyEq ?_
      filter_upwards [lt_mem_nhds h] with y hy
      simp [Act.fn, max_eq_left hy.le]
  | sigmoid =>
    have hne : 1 + Real.exp (-t) ≠ 0 := by positivity
    have h1 : HasDerivAt (fun y => 1 + Real.exp (-y)) (Real.exp (-t) * (-1)) t :=
      ((hasDerivAt_neg t).exp).const_add 1
    have h2 := h1.inv hne
    have h3 : HasDerivAt (fun y => 1 / (1 + Real.exp (-y))) (-(Real.exp (-t) * -1) / (1 + Real.exp (-t)) ^ 2) t := by
      simp only [one_div]
      exact h2
    refine HasDerivAt.congr_deriv h3 ?_
    simp only [Act.deriv]
    field_simp
    ring
  | tanh =>
    have hc : Real.cosh t ≠ 0 := (Real.cosh_pos t).ne'
    have h1 := (Real.hasDerivAt_sinh t).div (Real.hasDerivAt_cosh t) hc
    have h2 : HasDerivAt Act.tanh.fn _ t := h1.congr_of_eventuallyEq (Filter.Eventually.of_forall fun y => by
      simp [Act.fn, Real.tanh_eq_sinh_div_cosh])
    refine HasDerivAt.congr_deriv h2 ?_
    simp only [Act.deriv, Real.tanh_eq_sinh_div_cosh]
    field_simp
  | sinusoidal => exact Real.hasDerivAt_sin t
  | softplus b th =>
    obtain ⟨hb, ht⟩ := h
    have hpos : 0 < 1 + Real.exp (b * t) := by positivity
    have h1 : HasDerivAt (fun y => 1 + Real.exp (b * y)) (Real.exp (b * t) * b) t := by
      have : HasDerivAt (fun y : ℝ => b * y) b t := by simpa using (hasDerivAt_id t).const_mul b
      exact (this.exp).const_add 1
    have h2 := (h1.log hpos.ne').div_const b
    have h3 : HasDerivAt (Act.softplus b th).fn (Real.exp (b * t) * b / (1 + Real.exp (b * t)) / b) t := by
      refine h2.congr_of_eventuallyEq ?_
      have : ∀ᶠ y in nhds t, y * b < th :=
        (continuous_id.mul continuous_const).continuousAt.eventually_lt continuousAt_const ht
      filter_upwards [this] with y hy
      simp [Act.fn, not_lt.2 hy.le]
    refine HasDerivAt.congr_deriv h3 ?_
    simp only [Act.deriv]
    rw [Real.exp_neg]
    field_simp
    ring
  | custom f g => exact h
  | truncExp =>
    simp only [Act.smoothAt, abs_le] at h
    have : (Act.truncExp).deriv t = Real.exp t := by simp [Act.deriv, min_eq_right h.2, max_eq_right h.1]
    rw [this]
    exact Real.hasDerivAt_exp t

theorem actSem_diff (a : Act) : (a.sem n).Diff := by
  refine Sem.Diff.leaf0 fun x hx => ?_
  rw [hasFDerivAt_pi']
  intro i
  have := (act_hasDerivAt a (x i) (hx i)).hasFDerivAt.comp x (ContinuousLinearMap.proj (R := ℝ) (φ := fun _ : Fin n => ℝ) i).hasFDerivAt
  refine HasFDerivAt.congr_fderiv this ?_
  refine ContinuousLinearMap.ext fun z => ?_
  simp [mulVec_diagonal, mul_comm]

end NNJ
