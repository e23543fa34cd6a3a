import Mathlib.Probability.Distributions.Gaussian.Real
import Verif.Spec.Fisher
import Verif.Proofs.LogLikGrad

/-!
# Expectations over targets (C73)
-/

namespace NNJ
open Matrix LogLik MeasureTheory

section ex
variable {Ω : Type} [MeasurableSpace Ω] {μ : Measure Ω} {ρ f g : Ω → ℝ} {a b : ℝ}

theorem IntEx.smul (c : ℝ) (h : IntEx μ ρ f a) : IntEx μ ρ (fun ω => c * f ω) (c * a) := by
  have e : (fun ω => ρ ω * (c * f ω)) = fun ω => c * (ρ ω * f ω) := by funext ω; ring
  refine ⟨by rw [e]; exact h.1.const_mul c, ?_⟩
  rw [e, integral_const_mul, h.2]

theorem IntEx.sum {ι : Type} {s : Finset ι} {f : ι → Ω → ℝ} {a : ι → ℝ} (h : ∀ i, IntEx μ ρ (f i) (a i)) :
    IntEx μ ρ (fun ω => ∑ i ∈ s, f i ω) (∑ i ∈ s, a i) := by
  have e : (fun ω => ρ ω * ∑ i ∈ s, f i ω) = fun ω => ∑ i ∈ s, ρ ω * f i ω := by funext ω; rw [Finset.mul_sum]
  refine ⟨by rw [e]; exact integrable_finset_sum _ fun i _ => (h i).1, ?_⟩
  rw [e, integral_finset_sum _ fun i _ => (h i).1]
  exact Finset.sum_congr rfl fun i _ => (h i).2

theorem IntEx.congr (h : IntEx μ ρ f a) (hf : ∀ ω, g ω = f ω) (hb : b = a) : IntEx μ ρ g b := by
  have : g = f := funext hf
  rw [this, hb]; exact h

theorem IntEx.sumEx [Fintype Ω] [MeasurableSingletonClass Ω] (h : IntEx Measure.count ρ f a) : SumEx ρ f a := by
  have := h.2
  rwa [integral_count] at this

theorem pi_count {ι E : Type} [Fintype ι] [Fintype E] [MeasurableSpace E] [MeasurableSingletonClass E] :
    (Measure.pi fun _ : ι => (Measure.count : Measure E)) = Measure.count := by
  classical
  refine Measure.ext_of_singleton fun T => ?_
  rw [Measure.pi_singleton, Measure.count_singleton]
  simp

theorem intEx_count [Finite Ω] [Fintype Ω] [MeasurableSingletonClass Ω] (h : ∑ ω, ρ ω * f ω = a) : IntEx Measure.count ρ f a :=
  ⟨.of_finite, by rw [integral_count]; exact h⟩

end ex

/-- moments of a product density -/
theorem prod_moment {ι E : Type} [Fintype ι] [DecidableEq ι] [MeasurableSpace E] {μ : Measure E} [SigmaFinite μ] {r : ι → E → ℝ}
    (h1 : ∀ l, IntEx μ (r l) (fun _ => 1) 1) {u v : E → ℝ} {l m : ι} (hu : IntEx μ (r l) u 0) (hv : IntEx μ (r m) v 0) {a : ℝ}
    (huv : l = m → IntEx μ (r l) (fun t => u t * v t) a) :
    IntEx (Measure.pi fun _ => μ) (fun T : ι → E => ∏ i, r i (T i)) (fun T => u (T l) * v (T m)) (if l = m then a else 0) := by
  let f : ι → E → ℝ := fun i t => r i t * ((if i = l then u t else 1) * if i = m then v t else 1)
  have e : (fun T : ι → E => (∏ i, r i (T i)) * (u (T l) * v (T m))) = fun T => ∏ i, f i (T i) := by
    funext T
    simp only [f, Finset.prod_mul_distrib]
    simp
  have hf : ∀ i, Integrable (f i) μ ∧ ((i ≠ l → i ≠ m → ∫ t, f i t ∂μ = 1)) := fun i => by
    by_cases hl : i = l
    · subst hl
      by_cases hm : i = m
      · subst hm
        refine ⟨?_, fun h => absurd rfl h⟩
        simpa [f] using (huv rfl).1
      · exact ⟨by simpa [f, hm] using hu.1, fun h => absurd rfl h⟩
    · by_cases hm : i = m
      · subst hm
        exact ⟨by simpa [f, hl] using hv.1, fun _ h => absurd rfl h⟩
      · exact ⟨by simpa [f, hl, hm] using (h1 i).1, fun _ _ => by simpa [f, hl, hm] using (h1 i).2⟩
  refine ⟨by rw [e]; exact Integrable.fintype_prod fun i => (hf i).1, ?_⟩
  rw [e, integral_fintype_prod_eq_prod]
  by_cases hlm : l = m
  · subst hlm
    rw [if_pos rfl, Finset.prod_eq_single l (fun i _ hi => (hf i).2 hi hi) (by simp)]
    simpa [f] using (huv rfl).2
  · rw [if_neg hlm]
    refine Finset.prod_eq_zero (Finset.mem_univ l) ?_
    simpa [f, hlm] using hu.2

theorem prod_mean {ι E : Type} [Fintype ι] [DecidableEq ι] [MeasurableSpace E] {μ : Measure E} [SigmaFinite μ] {r : ι → E → ℝ}
    (h1 : ∀ l, IntEx μ (r l) (fun _ => 1) 1) {u : E → ℝ} {l : ι} (hu : IntEx μ (r l) u 0) :
    IntEx (Measure.pi fun _ => μ) (fun T : ι → E => ∏ i, r i (T i)) (fun T => u (T l)) 0 := by
  let f : ι → E → ℝ := fun i t => r i t * (if i = l then u t else 1)
  have e : (fun T : ι → E => (∏ i, r i (T i)) * u (T l)) = fun T => ∏ i, f i (T i) := by
    funext T
    simp only [f, Finset.prod_mul_distrib]
    simp
  have hf : ∀ i, Integrable (f i) μ := fun i => by
    by_cases hl : i = l
    · subst hl
      simpa [f] using hu.1
    · simpa [f, hl] using (h1 i).1
  refine ⟨by rw [e]; exact Integrable.fintype_prod hf, ?_⟩
  rw [e, integral_fintype_prod_eq_prod]
  refine Finset.prod_eq_zero (Finset.mem_univ l) ?_
  simpa [f] using hu.2

theorem prod_one {ι E : Type} [Fintype ι] [MeasurableSpace E] {μ : Measure E} [SigmaFinite μ] {r : ι → E → ℝ}
    (h1 : ∀ l, IntEx μ (r l) (fun _ => 1) 1) :
    IntEx (Measure.pi fun _ => μ) (fun T : ι → E => ∏ i, r i (T i)) (fun _ => 1) 1 := by
  have hi : ∀ i, Integrable (r i) μ := fun i => by simpa using (h1 i).1
  have he : ∀ i, ∫ t, r i t ∂μ = 1 := fun i => by simpa using (h1 i).2
  refine ⟨by simpa using Integrable.fintype_prod hi, ?_⟩
  simp only [mul_one]
  rw [integral_fintype_prod_eq_prod]
  simp [he]

section
variable {s s' : List Nat} {n k p : Nat} {N : Net s n s' k p} {st : Store ℝ}
variable {B : Nat} {X : Fin B → Fin n → ℝ} {Ω : Type} [MeasurableSpace Ω] {μ : Measure Ω} {ρ : Ω → ℝ}

/-- covariance of the aggregated gradients -/
theorem fisher_cov {q : Nat} {U : Ω → Fin B → Fin k → ℝ} {H : Fin B → Matrix (Fin k) (Fin k) ℝ} (J : Fin B → Matrix (Fin k) (Fin q) ℝ) (c : ℝ)
    (h2 : ∀ b a b' a', IntEx μ ρ (fun ω => U ω b a * U ω b' a') (if b = b' then -H b a a' else 0)) (i j : Fin q) :
    IntEx μ ρ (fun ω => (c * ∑ b, (U ω b ᵥ* J b) i) * (c * ∑ b, (U ω b ᵥ* J b) j)) (-(c * (c * ∑ b, ((J b)ᵀ * H b * J b) i j))) := by
  have key : IntEx μ ρ (fun ω => ∑ b, ∑ a, ∑ b', ∑ a', (c * c * J b a i * J b' a' j) * (U ω b a * U ω b' a'))
      (∑ b, ∑ a, ∑ b', ∑ a', (c * c * J b a i * J b' a' j) * (if b = b' then -H b a a' else 0)) :=
    IntEx.sum fun b => IntEx.sum fun a => IntEx.sum fun b' => IntEx.sum fun a' => (h2 b a b' a').smul _
  refine key.congr (fun ω => ?_) ?_
  · have e : ∀ i, c * ∑ b, (U ω b ᵥ* J b) i = ∑ b, ∑ a, c * (U ω b a * J b a i) := fun i => by
      simp only [vecMul, dotProduct, Finset.mul_sum]
    rw [e i, e j, Finset.sum_mul]
    refine Finset.sum_congr rfl fun b _ => ?_
    rw [Finset.sum_mul]
    refine Finset.sum_congr rfl fun a _ => ?_
    rw [Finset.mul_sum]
    refine Finset.sum_congr rfl fun b' _ => ?_
    rw [Finset.mul_sum]
    exact Finset.sum_congr rfl fun a' _ => by ring
  · rw [← mul_assoc, Finset.mul_sum, ← Finset.sum_neg_distrib]
    refine Finset.sum_congr rfl fun b _ => ?_
    have e : ∀ a, ∑ b', ∑ a', (c * c * J b a i * J b' a' j) * (if b = b' then -H b a a' else 0) =
        ∑ a', -(c * c * (J b a i * H b a a' * J b a' j)) := fun a => by
      rw [Finset.sum_eq_single b (fun b' _ hb => by simp [Ne.symm hb]) (by simp)]
      exact Finset.sum_congr rfl fun a' _ => by rw [if_pos rfl]; ring
    rw [Finset.sum_congr rfl fun a _ => e a, Finset.sum_comm]
    simp only [Matrix.mul_apply, transpose_apply, Finset.sum_mul, Finset.mul_sum, Finset.sum_neg_distrib]

theorem fisher_mean {q : Nat} {U : Ω → Fin B → Fin k → ℝ} (J : Fin B → Matrix (Fin k) (Fin q) ℝ) (c : ℝ)
    (h1 : ∀ b a, IntEx μ ρ (fun ω => U ω b a) 0) (i : Fin q) : IntEx μ ρ (fun ω => c * ∑ b, (U ω b ᵥ* J b) i) 0 := by
  have key : IntEx μ ρ (fun ω => ∑ b, ∑ a, (c * J b a i) * U ω b a) (∑ b, ∑ a, (c * J b a i) * 0) :=
    IntEx.sum fun b => IntEx.sum fun a => (h1 b a).smul _
  refine key.congr (fun ω => ?_) (by simp)
  simp only [vecMul, dotProduct, Finset.mul_sum]
  exact Finset.sum_congr rfl fun b _ => Finset.sum_congr rfl fun a _ => by ring

theorem fisher_input {grad : Ω → Wrt → Prog ℝ (PyVal ℝ)} {ggn : Wrt → Prog ℝ (PyVal ℝ)} {agg : AggArg} {shape : ShapeArg}
    {U : Ω → Fin B → Fin k → ℝ} {H : Fin B → Matrix (Fin k) (Fin k) ℝ} (hsh : shape = .diag ∨ shape = .full)
    (hg : ∀ ω, GradOf (grad ω) N st X agg (U ω)) (hG : GgnOf ggn N st X agg shape H) (h1 : ∀ b a, IntEx μ ρ (fun ω => U ω b a) 0)
    (h2 : ∀ b a b' a', IntEx μ ρ (fun ω => U ω b a * U ω b' a') (if b = b' then -H b a a' else 0)) :
    Fisher (IntEx μ ρ) (fun ω => grad ω .input) (ggn .input) st n shape (aggFactor agg B) := by
  choose g hg1 hg2 using fun ω => (hg ω).1
  rcases hsh with rfl | rfl
  · obtain ⟨r, hr, hR⟩ := hG.inputDiag rfl
    exact ⟨g, _, r, fun i j => aggFactor agg B * ∑ b, ((N.J st (X b))ᵀ * H b * N.J st (X b)) i j, fun ω => ⟨hg1 ω, hg2 ω⟩, hr,
      fun _ => hR, fun h => (by cases h), fisher_mean _ _ h1, fisher_cov _ _ h2⟩
  · obtain ⟨r, hr, hR⟩ := hG.inputFull rfl
    exact ⟨g, _, r, fun i j => aggFactor agg B * ∑ b, ((N.J st (X b))ᵀ * H b * N.J st (X b)) i j, fun ω => ⟨hg1 ω, hg2 ω⟩, hr,
      fun h => (by cases h), fun _ => hR, fisher_mean _ _ h1, fisher_cov _ _ h2⟩

theorem fisher_weight {grad : Ω → Wrt → Prog ℝ (PyVal ℝ)} {ggn : Wrt → Prog ℝ (PyVal ℝ)} {agg : AggArg} {shape : ShapeArg}
    {U : Ω → Fin B → Fin k → ℝ} {H : Fin B → Matrix (Fin k) (Fin k) ℝ} (hp : 0 < p) (hsh : shape = .diag ∨ shape = .full ∧ ¬ N.Container)
    (hg : ∀ ω, GradOf (grad ω) N st X agg (U ω)) (hG : GgnOf ggn N st X agg shape H) (h1 : ∀ b a, IntEx μ ρ (fun ω => U ω b a) 0)
    (h2 : ∀ b a b' a', IntEx μ ρ (fun ω => U ω b a * U ω b' a') (if b = b' then -H b a a' else 0)) :
    Fisher (IntEx μ ρ) (fun ω => grad ω .weight) (ggn .weight) st p shape (aggFactor agg B) := by
  choose g hg1 hg2 using fun ω => (hg ω).2.1 hp
  rcases hsh with rfl | ⟨rfl, hN⟩
  · obtain ⟨r, hr, hR⟩ := hG.weightDiag rfl hp
    exact ⟨g, _, r, fun i j => aggFactor agg B * ∑ b, ((N.JW st (X b))ᵀ * H b * N.JW st (X b)) i j, fun ω => ⟨hg1 ω, hg2 ω⟩, hr,
      fun _ => hR, fun h => (by cases h), fisher_mean _ _ h1, fisher_cov _ _ h2⟩
  · obtain ⟨r, hr, hR⟩ := hG.weightFull rfl hp hN
    exact ⟨g, _, r, fun i j => aggFactor agg B * ∑ b, ((N.JW st (X b))ᵀ * H b * N.JW st (X b)) i j, fun ω => ⟨hg1 ω, hg2 ω⟩, hr,
      fun h => (by cases h), fun _ => hR, fisher_mean _ _ h1, fisher_cov _ _ h2⟩

theorem Fisher.mono {Ω : Type} {Ex Ex' : (Ω → ℝ) → ℝ → Prop} {grad : Ω → Prog ℝ (PyVal ℝ)} {ggn : Prog ℝ (PyVal ℝ)} {q : Nat} {shape : ShapeArg} {c : ℝ}
    (h : Fisher Ex grad ggn st q shape c) (hE : ∀ f a, Ex f a → Ex' f a) : Fisher Ex' grad ggn st q shape c := by
  obtain ⟨g, G, r, F, a, b, c, d, e, f⟩ := h
  exact ⟨g, G, r, F, a, b, c, d, fun i => hE _ _ (e i), fun i j => hE _ _ (f i j)⟩

end

section
variable {s s' : List Nat} {n k p : Nat} {N : Net s n s' k p} {st : Store ℝ} {cfg : Cfg}
variable {B : Nat} {X : Fin B → Fin n → ℝ} {Ω : Type} [MeasurableSpace Ω] {μ : Measure Ω} {ρ : Ω → ℝ}

theorem aggFactor_ne (agg : AggArg) (hB : 0 < B) : aggFactor agg B ≠ 0 := by
  have : (0 : ℝ) < B := Nat.cast_pos.2 hB
  rw [aggFactor]; split_ifs <;> positivity

theorem likelihood_eq {fwd : Prog ℝ (Option (Tensor ℝ))} {L : ℝ} {agg : AggArg} (hB : 0 < B) (h : ReturnsScalar fwd st (aggFactor agg B * L)) :
    likelihood fwd st agg B = Real.exp L := by
  rw [likelihood, h.scalarOf_eq, mul_div_cancel_left₀ _ (aggFactor_ne agg hB)]

end

/-! binary targets -/

/-- probability of a binary target with logit `a` -/
noncomputable def bit (a : ℝ) (t : Bool) : ℝ := if t then sigma a else 1 - sigma a

theorem sigma_pos (a : ℝ) : 0 < sigma a := div_pos (Real.exp_pos _) (by positivity)
theorem sigma_lt (a : ℝ) : 0 < 1 - sigma a := by rw [one_sub_sigma]; positivity

theorem bit_one (a : ℝ) : IntEx Measure.count (bit a) (fun _ => 1) 1 := intEx_count (by simp [bit])
theorem bit_mean (a : ℝ) : IntEx Measure.count (bit a) (fun t => bitVal t - sigma a) 0 := intEx_count (by simp [bit, bitVal]; ring)
theorem bit_var (a : ℝ) : IntEx Measure.count (bit a) (fun t => (bitVal t - sigma a) * (bitVal t - sigma a)) (-(sigma a * sigma a - sigma a)) :=
  intEx_count (by simp [bit, bitVal]; ring)

theorem exp_bin1 (a : ℝ) (t : Bool) : Real.exp (bitVal t * Real.log (sigma a) + (1 - bitVal t) * Real.log (1 - sigma a)) = bit a t := by
  cases t
  · simp [bit, bitVal, Real.exp_log (sigma_lt a)]
  · simp [bit, bitVal, Real.exp_log (sigma_pos a)]

/-! classes -/

theorem softmax_sum_univ {c : Nat} (y : Fin c → ℝ) (hc : 0 < c) : ∑ j, softmax c y j = 1 := by
  have := softmax_sum (c := c) y ⟨0, hc⟩
  rwa [classRow_univ] at this

theorem cls_one {c : Nat} (hc : 0 < c) (y : Fin c → ℝ) : IntEx Measure.count (softmax c y) (fun _ => 1) 1 :=
  intEx_count (by simpa using softmax_sum_univ y hc)
theorem cls_mean {c : Nat} (hc : 0 < c) (y : Fin c → ℝ) (a : Fin c) :
    IntEx Measure.count (softmax c y) (fun t => (if a = t then 1 else 0) - softmax c y a) 0 :=
  intEx_count (by
    simp only [mul_sub, Finset.sum_sub_distrib, mul_ite, mul_one, mul_zero, Finset.sum_ite_eq, Finset.mem_univ, if_true]
    rw [← Finset.sum_mul, softmax_sum_univ y hc]; ring)
theorem cls_cov {c : Nat} (hc : 0 < c) (y : Fin c → ℝ) (a a' : Fin c) :
    IntEx Measure.count (softmax c y) (fun t => ((if a = t then 1 else 0) - softmax c y a) * ((if a' = t then 1 else 0) - softmax c y a'))
      (-classH c y a a') :=
  intEx_count (by
    have e : ∀ t, softmax c y t * (((if a = t then 1 else 0) - softmax c y a) * ((if a' = t then 1 else 0) - softmax c y a')) =
        (if a = t then (if a' = a then softmax c y a else 0) else 0) - (if a = t then softmax c y a * softmax c y a' else 0) -
          (if a' = t then softmax c y a' * softmax c y a else 0) + softmax c y t * (softmax c y a * softmax c y a') := fun t => by
      by_cases h1 : a = t
      · subst h1
        by_cases h2 : a' = a
        · subst h2; simp; ring
        · simp [h2]; ring
      · by_cases h2 : a' = t
        · subst h2; simp [h1]; ring
        · simp [h1, h2]
    rw [Finset.sum_congr rfl fun t _ => e t]
    simp only [Finset.sum_add_distrib, Finset.sum_sub_distrib, Finset.sum_ite_eq, Finset.mem_univ, if_true]
    rw [← Finset.sum_mul, softmax_sum_univ y hc, classH, classRow_univ, if_pos (Finset.mem_univ _)]
    ring)

theorem exp_class1 {c : Nat} (y : Fin c → ℝ) (t : Fin c) : Real.exp (classLL c y (oneHot t)) = softmax c y t := by
  simp only [classLL, oneHot, ite_mul, one_mul, zero_mul, Finset.sum_ite_eq', Finset.mem_univ, if_true]
  exact Real.exp_log (softmax_pos y t)

/-! normal targets -/

/-- density of the normal distribution with mean `a` and variance 1 -/
noncomputable def normalPdf (a t : ℝ) : ℝ := (Real.sqrt (2 * Real.pi))⁻¹ * Real.exp (-(1 / 2) * (a - t) ^ 2)

theorem normalPdf_eq (a : ℝ) : normalPdf a = ProbabilityTheory.gaussianPDFReal a 1 := by
  funext t
  simp only [normalPdf, ProbabilityTheory.gaussianPDFReal, NNReal.coe_one, mul_one]
  congr 2
  ring

theorem normal_ex {a : ℝ} {f : ℝ → ℝ} {v : ℝ} (hf : Integrable f (ProbabilityTheory.gaussianReal a 1))
    (hv : ∫ t, f t ∂ProbabilityTheory.gaussianReal a 1 = v) : IntEx volume (normalPdf a) f v := by
  rw [normalPdf_eq]
  constructor
  · rw [ProbabilityTheory.gaussianReal_of_var_ne_zero _ one_ne_zero] at hf
    have := (integrable_withDensity_iff_integrable_smul' (ProbabilityTheory.measurable_gaussianPDF a 1)
      (ae_of_all _ fun _ => ProbabilityTheory.gaussianPDF_lt_top)).1 hf
    simpa [ProbabilityTheory.gaussianPDF, ENNReal.toReal_ofReal (ProbabilityTheory.gaussianPDFReal_nonneg _ _ _)] using this
  · rw [← hv, ProbabilityTheory.integral_gaussianReal_eq_integral_smul one_ne_zero]
    simp

theorem normal_one (a : ℝ) : IntEx volume (normalPdf a) (fun _ => 1) 1 := normal_ex (integrable_const 1) (by simp)

theorem normal_memLp (a : ℝ) (q : NNReal) : MemLp (fun t => t - a) q (ProbabilityTheory.gaussianReal a 1) :=
  (ProbabilityTheory.memLp_id_gaussianReal q).sub (memLp_const a)

theorem normal_mean (a : ℝ) : IntEx volume (normalPdf a) (fun t => t - a) 0 := by
  refine normal_ex (memLp_one_iff_integrable.1 (normal_memLp a 1)) ?_
  have h := memLp_one_iff_integrable.1 (ProbabilityTheory.memLp_id_gaussianReal (μ := a) (v := 1) 1)
  rw [integral_sub (f := fun t => t) h (integrable_const a), ProbabilityTheory.integral_id_gaussianReal]
  simp

theorem normal_var (a : ℝ) : IntEx volume (normalPdf a) (fun t => (t - a) * (t - a)) 1 := by
  have h2 := (normal_memLp a 2)
  refine normal_ex ?_ ?_
  · simpa [pow_two] using h2.integrable_sq
  · have := ProbabilityTheory.variance_fun_id_gaussianReal (μ := a) (v := 1)
    rw [ProbabilityTheory.variance_eq_integral measurable_id'.aemeasurable] at this
    simpa [ProbabilityTheory.integral_id_gaussianReal, pow_two] using this

end NNJ
