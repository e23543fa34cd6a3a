import Verif.Proofs.LogLikRun

/-! Gradients of the likelihoods, for any likelihood with a given forward value and residual. -/

namespace NNJ
open Tensor Matrix LogLik

section
variable {s s' : List Nat} {n k p : Nat} {N : Net s n s' k p} {st : Store ℝ}
variable {B : Nat} {X : Fin B → Fin n → ℝ} {x t : Tensor ℝ} {T : Fin B → Fin k → ℝ}
variable {LL : (Fin k → ℝ) → (Fin k → ℝ) → ℝ} {U : (Fin k → ℝ) → (Fin k → ℝ) → Fin k → ℝ}

theorem aggFactor_one {agg : AggArg} (h : agg = .sum ∨ agg = .average) : aggFactor agg 1 = 1 := by
  rcases h with rfl | rfl <;> simp [aggFactor]

/-- gradient in the inputs, sample by sample -/
theorem grad_input {fwd : Tensor ℝ → Option (Tensor ℝ) → Prog ℝ (Option (Tensor ℝ))} {grad : Wrt → Prog ℝ (PyVal ℝ)} {agg agg' : AggArg}
    (hagg' : agg' = .sum ∨ agg' = .average)
    (hF : ∀ {X : Fin 1 → Fin n → ℝ} {T : Fin 1 → Fin k → ℝ} {x t : Tensor ℝ}, IsBatch x 1 s n X → IsBatch t 1 s' k T →
      ReturnsScalar (fwd x (some t)) st (aggFactor agg' 1 * ∑ b, LL (N.out st (X b)) (T b)))
    (hG : GradOf grad N st X agg fun b => U (N.out st (X b)) (T b))
    (hU : ∀ b, HasGrad (fun y => LL y (T b)) (U (N.out st (X b)) (T b)) (N.out st (X b)))
    (hs : ∀ b, N.sem.smooth (N.w st) (X b)) :
    ∃ (g : Tensor ℝ) (G : Fin B → Fin n → ℝ), Returns (grad .input) st (.tensor g) ∧ IsVec1 g n (fun i => aggFactor agg B * ∑ b, G b i) ∧
      ∀ b, HasGrad (fun z => scalarOf (fwd (ofSample s z) (some (ofSample s' (T b)))) st) (G b) (X b) := by
  obtain ⟨g, hg, hg'⟩ := hG.1
  refine ⟨g, _, hg, hg', fun b => ?_⟩
  have e : (fun z => scalarOf (fwd (ofSample s z) (some (ofSample s' (T b)))) st) = fun z => LL (N.out st z) (T b) := by
    funext z
    rw [(hF (ofSample_isBatch z) (ofSample_isBatch (T b))).scalarOf_eq, aggFactor_one hagg']
    simp
  rw [e]
  exact HasGrad.comp (f := N.out st) (hU b) (N.diff _ _ (hs b)).input

/-- gradient in the weights -/
theorem grad_weight {fwd : Prog ℝ (Option (Tensor ℝ))} {grad : Wrt → Prog ℝ (PyVal ℝ)} {agg : AggArg}
    (h : N.Ok st) (hh : st.hooks N.mod.id = []) (hn : N.paramIds.Nodup) (hp : 0 < p)
    (hF : ∀ {st : Store ℝ}, N.Ok st → st.hooks N.mod.id = [] → ReturnsScalar fwd st (aggFactor agg B * ∑ b, LL (N.out st (X b)) (T b)))
    (hG : GradOf grad N st X agg fun b => U (N.out st (X b)) (T b))
    (hU : ∀ b, HasGrad (fun y => LL y (T b)) (U (N.out st (X b)) (T b)) (N.out st (X b)))
    (hs : ∀ b, N.sem.smooth (N.w st) (X b)) :
    ∃ wt w g G, Returns N.mod.getWeight st wt ∧ IsVec1 wt p w ∧ Returns (grad .weight) st (.tensor g) ∧ IsVec1 g p G ∧
      (∀ w' : Fin p → ℝ, ∃ a, ReturnsScalar (do N.mod.setWeight (ofVec w'); fwd) st a) ∧
      HasGrad (fun w' => scalarOf (do N.mod.setWeight (ofVec w'); fwd) st) G w := by
  obtain ⟨wt, hwt, hw⟩ := h.getWeight hn hp
  obtain ⟨g, hg, hg'⟩ := hG.2.1 hp
  have key : ∀ w' : Fin p → ℝ, ReturnsScalar (do N.mod.setWeight (ofVec w'); fwd) st (aggFactor agg B * ∑ b, LL (N.sem.f w' (X b)) (T b)) := fun w' => by
    obtain ⟨st', hr, hS, hok, hw'⟩ := h.setWeight hn (v := ofVec w') (by simp [Tensor.numel, ofVec])
    obtain ⟨v, hv, hv'⟩ := hF hok (by rw [hS.wiring.hooks]; exact hh)
    refine ⟨v, ?_, ?_⟩
    · rw [Returns, Prog.bind_ok hr]; exact hv
    · have : N.w st' = w' := by funext i; rw [hw']; simp [ofVec]
      simpa only [Net.out, this] using hv'
  refine ⟨wt, N.w st, g, _, by rw [Returns, hwt], hw, hg, hg', fun w' => ⟨_, key w'⟩, ?_⟩
  have e : (fun w' => scalarOf (do N.mod.setWeight (ofVec w'); fwd) st) = fun w' => aggFactor agg B * ∑ b, LL (N.sem.f w' (X b)) (T b) := by
    funext w'; exact (key w').scalarOf_eq
  rw [e]
  exact HasGrad.smul _ (HasGrad.sum fun b => HasGrad.comp (f := fun w => N.sem.f w (X b)) (hU b) (N.diff _ _ (hs b)).weight)

/-- `Jᵀ H J` is negative semidefinite when `H` is -/
theorem sandwich_nonpos {m : Nat} (J : Matrix (Fin k) (Fin m) ℝ) (H : Matrix (Fin k) (Fin k) ℝ) (hH : ∀ v, v ⬝ᵥ (H *ᵥ v) ≤ 0) (v : Fin m → ℝ) :
    v ⬝ᵥ ((Jᵀ * H * J) *ᵥ v) ≤ 0 := by
  rw [Matrix.mul_assoc, ← mulVec_mulVec, dotProduct_mulVec, vecMul_transpose, ← mulVec_mulVec]
  exact hH (J *ᵥ v)

theorem aggFactor_nonneg (agg : AggArg) (B : Nat) : 0 ≤ aggFactor agg B := by
  rw [aggFactor]; split_ifs <;> positivity

theorem agg_nonpos {m : Nat} (agg : AggArg) (M : Fin B → Matrix (Fin m) (Fin m) ℝ) (hM : ∀ b v, v ⬝ᵥ (M b *ᵥ v) ≤ 0) (v : Fin m → ℝ) :
    v ⬝ᵥ ((fun i j => aggFactor agg B * ∑ b, M b i j : Matrix (Fin m) (Fin m) ℝ) *ᵥ v) ≤ 0 := by
  have e : v ⬝ᵥ ((fun i j => aggFactor agg B * ∑ b, M b i j : Matrix (Fin m) (Fin m) ℝ) *ᵥ v) = aggFactor agg B * ∑ b, v ⬝ᵥ (M b *ᵥ v) := by
    have e0 : (fun i j => aggFactor agg B * ∑ b, M b i j : Matrix (Fin m) (Fin m) ℝ) = aggFactor agg B • ∑ b, M b := by
      ext i j; simp [Matrix.sum_apply]
    rw [e0, smul_mulVec, Matrix.sum_mulVec, dotProduct_smul, dotProduct_sum, smul_eq_mul]
  rw [e]
  exact mul_nonpos_of_nonneg_of_nonpos (aggFactor_nonneg _ _) (Finset.sum_nonpos fun b _ => hM b v)

theorem diag_nonpos {m : Nat} (M : Matrix (Fin m) (Fin m) ℝ) (hM : ∀ v, v ⬝ᵥ (M *ᵥ v) ≤ 0) (i : Fin m) : M i i ≤ 0 := by
  simpa using hM (Pi.single i 1)

theorem diagonal_nonpos {d : Fin k → ℝ} (h : ∀ i, d i ≤ 0) (v : Fin k → ℝ) : v ⬝ᵥ (diagonal d *ᵥ v) ≤ 0 := by
  simp only [dotProduct, mulVec_diagonal]
  exact Finset.sum_nonpos fun i _ => by nlinarith [h i, mul_self_nonneg (v i)]

theorem sigma_sq (a : ℝ) : sigma a * sigma a - sigma a ≤ 0 := by
  have h1 : 0 ≤ sigma a := by rw [sigma]; positivity
  have h2 : 0 ≤ 1 - sigma a := by rw [one_sub_sigma]; positivity
  nlinarith

variable {agg : AggArg} {shape : ShapeArg} {H : Fin B → Matrix (Fin k) (Fin k) ℝ} {ggn : Wrt → Prog ℝ (PyVal ℝ)}
  {hess : Fin B → Matrix (Fin k) (Fin k) ℝ → Prop}

theorem ggnDiag_of (h : N.Ok st) (hB : 0 < B) (hx : IsBatch x B s n X) (hg : GgnOf ggn N st X agg shape H) (hs : shape = .diag)
    (hH : ∀ b, hess b (H b)) (hneg : ∀ b v, v ⬝ᵥ (H b *ᵥ v) ≤ 0) :
    GgnDiag (ggn .input) (N.mod.jacobian x none .input) st B k n agg hess ∧
    (0 < p → GgnDiag (ggn .weight) (N.mod.jacobian x none .weight) st B k p agg hess) := by
  constructor
  · obtain ⟨jt, hj, hJ⟩ := h.jacI hB hx
    obtain ⟨g, hr, hG⟩ := hg.inputDiag hs
    refine ⟨jt, g, _, H, _, hj, hJ, hH, hr, hG, fun _ => rfl, fun i => ?_⟩
    exact mul_nonpos_of_nonneg_of_nonpos (aggFactor_nonneg _ _)
      (Finset.sum_nonpos fun b _ => diag_nonpos _ (sandwich_nonpos _ _ (hneg b)) i)
  · intro hp
    obtain ⟨jt, hj, hJ⟩ := h.jacW hB hx hp
    obtain ⟨g, hr, hG⟩ := hg.weightDiag hs hp
    refine ⟨jt, g, _, H, _, hj, hJ, hH, hr, hG, fun _ => rfl, fun i => ?_⟩
    exact mul_nonpos_of_nonneg_of_nonpos (aggFactor_nonneg _ _)
      (Finset.sum_nonpos fun b _ => diag_nonpos _ (sandwich_nonpos _ _ (hneg b)) i)

theorem ggnFull_of (h : N.Ok st) (hB : 0 < B) (hx : IsBatch x B s n X) (hg : GgnOf ggn N st X agg shape H) (hs : shape = .full)
    (hH : ∀ b, hess b (H b)) (hneg : ∀ b v, v ⬝ᵥ (H b *ᵥ v) ≤ 0) :
    GgnFull (ggn .input) (N.mod.jacobian x none .input) st B k n agg hess ∧
    (0 < p → ¬ N.Container → GgnFull (ggn .weight) (N.mod.jacobian x none .weight) st B k p agg hess) ∧
    (N.Container → (ggn .weight st).1 = .error .type) := by
  refine ⟨?_, fun hp hl => ?_, hg.weightList hs⟩
  · obtain ⟨jt, hj, hJ⟩ := h.jacI hB hx
    obtain ⟨g, hr, hG⟩ := hg.inputFull hs
    exact ⟨jt, g, _, H, _, hj, hJ, hH, hr, hG, fun _ _ => rfl, agg_nonpos agg _ fun b => sandwich_nonpos _ _ (hneg b)⟩
  · obtain ⟨jt, hj, hJ⟩ := h.jacW hB hx hp
    obtain ⟨g, hr, hG⟩ := hg.weightFull hs hp hl
    exact ⟨jt, g, _, H, _, hj, hJ, hH, hr, hG, fun _ _ => rfl, agg_nonpos agg _ fun b => sandwich_nonpos _ _ (hneg b)⟩

end
end NNJ
