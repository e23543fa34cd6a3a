import Verif.Proofs.Training
import Verif.Props.Hessian

/-!
# C74: optimising the weights with what `gradient` and `ggn` return

A small step along the returned gradient increases the log-likelihood, for any network.  If only one layer has parameters and what
comes after it moves or copies entries, then a zero gradient means that the weights are optimal; with two layers this fails.  For
`LogGaussian` and a single layer, one Newton step with `gradient` and `ggn` reaches the optimum.
-/

namespace NNJ
namespace Props
open Matrix LogLik

variable {s s' : List Nat} {n k p : Nat} {N : Net s n s' k p} {st : Store ℝ}
variable {B : Nat} {X : Fin B → Fin n → ℝ} {x target : Tensor ℝ} {T : Fin B → Fin k → ℝ} {cfg : Cfg}

/-- C74: where the network is differentiable, `model.set_weight(model.get_weight() + η * gradient)` increases `LogGaussian.forward` and
`LogBinaryBernoulli.forward` for all small enough `η > 0`, unless the gradient is 0. -/
theorem C74_ascent (h : N.Ok st) (hh : st.hooks N.mod.id = []) (hn : N.paramIds.Nodup) (hp : 0 < p) (hB : 0 < B)
    (hx : IsBatch x B s n X) (ht : IsBatch target B s' k T) (hagg : cfg.agg = .sum ∨ cfg.agg = .average)
    (hs : ∀ b, N.sem.smooth (N.w st) (X b)) :
    N.Ascends (gaussianGradient cfg N.mod x (some target) .weight) (gaussianForward cfg N.mod x (some target)) st ∧
    N.Ascends (binaryGradient cfg N.mod x (some target) .weight) (binaryForward cfg N.mod x (some target)) st :=
  ⟨ascends_of (LL := gaussLL) (U := fun y t i => t i - y i) h hh hn hp (fun h hh => gaussianForward_scalar h hh hB hx ht hagg)
    (gaussianGradient_run h hh hB hx ht hagg) (fun b y => gaussLL_grad y (T b)) hs,
   ascends_of (LL := binLL) (U := fun y t i => t i - sigma (y i)) h hh hn hp (fun h hh => binaryForward_scalar h hh hB hx ht hagg)
    (binaryGradient_run h hh hB hx ht hagg) (fun b y => binLL_grad y (T b)) hs⟩

theorem classLL_grad' {c : Nat} {t : Fin c → ℝ} (ht : ∑ j, t j = 1) (y : Fin c → ℝ) :
    HasGrad (fun y => classLL c y t) (fun i => t i - softmax c y i) y := by
  have := classLL_grad (c := c) y t
  simpa only [classRow_univ, ht, one_mul] using this

/-- C74: the same for `LogBernoulli`, with outputs that are one class vector and targets whose sums are 1. -/
theorem C74_ascent_bernoulli {c : Nat} {N : Net s n [c] c p} {T : Fin B → Fin c → ℝ} (h : N.Ok st) (hh : st.hooks N.mod.id = [])
    (hn : N.paramIds.Nodup) (hp : 0 < p) (hB : 0 < B) (hx : IsBatch x B s n X) (ht : IsBatch target B [c] c T) (hsum : ∀ b, ∑ j, T b j = 1)
    (hagg : cfg.agg = .sum ∨ cfg.agg = .average) (hs : ∀ b, N.sem.smooth (N.w st) (X b)) :
    N.Ascends (bernoulliGradient cfg N.mod x (some target) .weight) (bernoulliForward cfg N.mod x (some target)) st :=
  ascends_of (LL := classLL c) (U := fun y t i => t i - softmax c y i) h hh hn hp (fun h hh => bernoulliForward_scalar h hh hB hx ht rfl hagg)
    (bernoulliGradient_run h hh hB hx ht rfl hagg) (fun b y => classLL_grad' (hsum b) y) hs

/-- C74: let only one layer have parameters, and let Flatten, Reshape and Upsample be all that comes after it.  Then the gradients that
`LogGaussian` and `LogBinaryBernoulli` return are 0 exactly if no other weights have a larger log-likelihood. -/
theorem C74_stationary (h : N.Ok st) (hh : st.hooks N.mod.id = []) (hn : N.paramIds.Nodup) (hp : 0 < p) (hB : 0 < B)
    (hx : IsBatch x B s n X) (ht : IsBatch target B s' k T) (hagg : cfg.agg = .sum ∨ cfg.agg = .average) (hN : N.LastLayer) :
    N.Stationary (gaussianGradient cfg N.mod x (some target) .weight) (gaussianForward cfg N.mod x (some target)) st ∧
    N.Stationary (binaryGradient cfg N.mod x (some target) .weight) (binaryForward cfg N.mod x (some target)) st :=
  ⟨stationary_of (LL := gaussLL) (U := fun y t i => t i - y i) h hh hn hp hN (fun h hh => gaussianForward_scalar h hh hB hx ht hagg)
    (gaussianGradient_run h hh hB hx ht hagg) (fun b y => gaussLL_grad y (T b)) (fun b y => gaussLL_hess y (T b))
    (fun _ _ => diagonal_nonpos fun _ => by norm_num),
   stationary_of (LL := binLL) (U := fun y t i => t i - sigma (y i)) h hh hn hp hN (fun h hh => binaryForward_scalar h hh hB hx ht hagg)
    (binaryGradient_run h hh hB hx ht hagg) (fun b y => binLL_grad y (T b)) (fun b y => binLL_hess y (T b))
    (fun _ _ => diagonal_nonpos fun _ => sigma_sq _)⟩

/-- C74: the same for `LogBernoulli`, with outputs that are one class vector and targets whose sums are 1. -/
theorem C74_stationary_bernoulli {c : Nat} {N : Net s n [c] c p} {T : Fin B → Fin c → ℝ} (h : N.Ok st) (hh : st.hooks N.mod.id = [])
    (hn : N.paramIds.Nodup) (hp : 0 < p) (hB : 0 < B) (hx : IsBatch x B s n X) (ht : IsBatch target B [c] c T) (hsum : ∀ b, ∑ j, T b j = 1)
    (hagg : cfg.agg = .sum ∨ cfg.agg = .average) (hN : N.LastLayer) :
    N.Stationary (bernoulliGradient cfg N.mod x (some target) .weight) (bernoulliForward cfg N.mod x (some target)) st :=
  stationary_of (LL := classLL c) (U := fun y t i => t i - softmax c y i) h hh hn hp hN (fun h hh => bernoulliForward_scalar h hh hB hx ht rfl hagg)
    (bernoulliGradient_run h hh hB hx ht rfl hagg) (fun b y => classLL_grad' (hsum b) y)
    (fun b y => classLL_hess y (T b) fun i => by rw [classRow_univ]; exact hsum b) (fun _ => classH_nonpos)

/-- C74: for `LogGaussian(metric_shape="full")` and a single layer with parameters, the equation `ggn @ d = -gradient` has solutions, and
they are exactly the `d` for which the weights `get_weight() + d` maximise the log-likelihood. -/
theorem C74_newton (h : N.Ok st) (hh : st.hooks N.mod.id = []) (hn : N.paramIds.Nodup) (hp : 0 < p) (hB : 0 < B)
    (hx : IsBatch x B s n X) (ht : IsBatch target B s' k T) (hagg : cfg.agg = .sum ∨ cfg.agg = .average) (hsh : cfg.shape = .full)
    (hbp : cfg.backprop = .exact) (hN : ¬ N.Container) :
    N.Newton (gaussianGradient cfg N.mod x (some target) .weight) (gaussianGgn cfg N.mod x .weight)
      (gaussianForward cfg N.mod x (some target)) st :=
  newton_of h hh hn hp hN (fun h hh => gaussianForward_scalar h hh hB hx ht hagg) (gaussianGradient_run h hh hB hx ht hagg)
    (gaussianGgn_run h hh hB hx hagg hbp) hsh

/-- `Sequential(Linear(1, 1, bias=False), Linear(1, 1, bias=False))` -/
noncomputable def twoNet : Net [1] 1 [1] 1 (0 + (1 * 1 + 0) + (1 * 1 + 0)) :=
  .seq 0 (.snoc (.snoc (.nil [1] 1 rfl (by norm_num)) (.linear 1 0 none 1 1 (by norm_num) (by norm_num)))
    (.linear 2 1 none 1 1 (by norm_num) (by norm_num)))

theorem twoNet_f (w : Fin 2 → ℝ) (x : Fin 1 → ℝ) (i : Fin 1) : twoNet.sem.f w x i = w 1 * (w 0 * x 0) := by
  have e : ∀ w : Fin 2 → ℝ, twoNet.sem.f w x i = w ⟨1, by norm_num⟩ * (w ⟨0, by norm_num⟩ * x 0) := fun w => by
    simp [twoNet, Net.sem, Chain.sem, Sem.comp, Sem.id, linearSem, Sem.leaf, linearF, wl, wr, finProdFinEquiv, biasLen]
  exact e w

theorem twoNet_w (st : Store ℝ) (h0 : (st.param 0).data 0 = 0) (h1 : (st.param 1).data 0 = 0) : twoNet.w st = 0 := by
  funext i
  fin_cases i
  · simpa [twoNet, Net.w, Chain.w, linearW, Fin.append, Fin.addCases] using h0
  · simpa [twoNet, Net.w, Chain.w, linearW, Fin.append, Fin.addCases] using h1

/-- C74, the boundary: with two layers and all weights 0, the gradient for the input 1 and the target 1 is 0, but other weights have a
larger log-likelihood. -/
theorem C74_two_layers (h : twoNet.Ok st) (hh : st.hooks 0 = []) (h0 : (st.param 0).data 0 = 0) (h1 : (st.param 1).data 0 = 0)
    (hagg : cfg.agg = .sum ∨ cfg.agg = .average) :
    ∃ g G a w' a', Returns (gaussianGradient cfg twoNet.mod (ofSample [1] fun _ : Fin 1 => 1) (some (ofSample [1] fun _ : Fin 1 => 1)) .weight) st (.tensor g) ∧
      IsVec1 g 2 G ∧ G = 0 ∧
      ReturnsScalar (gaussianForward cfg twoNet.mod (ofSample [1] fun _ : Fin 1 => 1) (some (ofSample [1] fun _ : Fin 1 => 1))) st a ∧
      ReturnsScalar (twoNet.At (gaussianForward cfg twoNet.mod (ofSample [1] fun _ : Fin 1 => 1) (some (ofSample [1] fun _ : Fin 1 => 1))) w') st a' ∧ a < a' := by
  have hx := ofSample_isBatch (s := [1]) fun _ : Fin 1 => (1 : ℝ)
  have hn : twoNet.paramIds.Nodup := by simp [twoNet, Net.paramIds, Chain.paramIds]
  obtain ⟨g, hg, hG⟩ := (gaussianGradient_run h hh Nat.one_pos hx hx hagg (cfg := cfg)).2.1 (by norm_num)
  have hF := gaussianForward_scalar h hh Nat.one_pos hx hx hagg (cfg := cfg)
  have hv := weight_value (LL := gaussLL) h hh hn (fun h hh => gaussianForward_scalar h hh Nat.one_pos hx hx hagg (cfg := cfg)) (fun _ => 1)
  have hw := twoNet_w st h0 h1
  refine ⟨g, _, _, _, _, hg, hG, ?_, hF, hv, ?_⟩
  · have e : twoNet.JW st (fun _ : Fin 1 => 1) = 0 := by
      have hs : twoNet.sem.smooth 0 (fun _ : Fin 1 => 1) := by
        simp [twoNet, Net.sem, Chain.sem, Sem.comp, Sem.id, linearSem, Sem.leaf]
      have d1 := (twoNet.diff _ _ hs).weight
      have d2 : HasFDerivAt (fun w : Fin 2 → ℝ => twoNet.sem.f w fun _ : Fin 1 => 1) (0 : (Fin 2 → ℝ) →L[ℝ] Fin 1 → ℝ) 0 := by
        have e2 : (fun w : Fin 2 → ℝ => twoNet.sem.f w fun _ : Fin 1 => 1) = fun w _ => w 1 * w 0 := by
          funext w i; rw [twoNet_f, mul_one]
        rw [e2, hasFDerivAt_pi']
        intro i
        refine ((hasFDerivAt_apply (𝕜 := ℝ) (1 : Fin 2) (0 : Fin 2 → ℝ)).mul (hasFDerivAt_apply (𝕜 := ℝ) (0 : Fin 2) (0 : Fin 2 → ℝ))).congr_fderiv ?_
        simp
      have d3 := d1.unique d2
      rw [Net.JW, hw]
      funext i j
      have := congrFun (DFunLike.congr_fun d3 (Pi.single j 1)) i
      simpa using this
    funext i
    simp [e]
  · rw [aggFactor_one hagg]
    simp [gaussLL, Net.out, twoNet_f, hw]

/-! ### the hypotheses can be met -/

example : clsNet.Ascends (bernoulliGradient exCfg clsNet.mod exInput (some clsTarget) .weight) (bernoulliForward exCfg clsNet.mod exInput (some clsTarget)) exStore :=
  C74_ascent_bernoulli clsNet_ok clsNet_hooks (by simp [clsNet, Net.paramIds, Chain.paramIds]) (by norm_num) (by norm_num) exInput_isBatch
    clsTarget_isBatch (fun _ => by simp [Fin.sum_univ_succ]; norm_num) (.inr rfl) fun _ => by simp [clsNet, Net.sem, Chain.sem, Sem.comp, Sem.id, linearSem, Sem.leaf]

example : pwNet.Ascends (gaussianGradient exCfg pwNet.mod exInput (some exInput) .weight) (gaussianForward exCfg pwNet.mod exInput (some exInput)) exStore :=
  (C74_ascent pwNet_ok pwNet_hooks (by rw [pwNet_paramIds]; decide) (by norm_num) (by norm_num) exInput_isBatch exInput_isBatch (.inr rfl) pwNet_smooth).1

example : clsNet.LastLayer := .inl ⟨rfl, trivial⟩

example : clsNet.Stationary (bernoulliGradient exCfg clsNet.mod exInput (some clsTarget) .weight) (bernoulliForward exCfg clsNet.mod exInput (some clsTarget)) exStore :=
  C74_stationary_bernoulli clsNet_ok clsNet_hooks (by simp [clsNet, Net.paramIds, Chain.paramIds]) (by norm_num) (by norm_num) exInput_isBatch
    clsTarget_isBatch (fun _ => by simp [Fin.sum_univ_succ]; norm_num) (.inr rfl) (.inl ⟨rfl, trivial⟩)

/-- `Sequential(Tanh(), Linear(2, 3), Reshape(3, 1))`: fixed features, one layer with parameters, a layer that moves entries -/
noncomputable def featNet : Net [2] 2 [3, 1] 3 (0 + 0 + (3 * 2 + 3) + 0) :=
  .seq 0 (.snoc (.snoc (.snoc (.nil [2] 2 rfl (by norm_num)) (.act .tanh 1 [2] 2 rfl (by norm_num)))
    (.linear 2 0 (some 1) 2 3 (by norm_num) (by norm_num))) (.reshape 3 [3] [3, 1] 3 rfl rfl (by norm_num) [3, 1] (.inl rfl)))

example : featNet.LastLayer := .inr ⟨.inl ⟨rfl, trivial⟩, trivial⟩

/-- with two layers that have parameters -/
example : ¬ twoNet.LastLayer := by simp [twoNet, Net.LastLayer, Chain.LastLayer, Net.Moves]

/-- a state in which the two weights are 0 -/
noncomputable def zeroStore : Store ℝ where
  param _ := ⟨[1, 1], fun _ => 0⟩
  fmaps i := if i = 0 then some [] else none
  pidx _ := none
  hooks i := if i = 1 ∨ i = 2 then [0] else []

example : twoNet.Ok zeroStore ∧ zeroStore.hooks 0 = [] ∧ (zeroStore.param 0).data 0 = 0 ∧ (zeroStore.param 1).data 0 = 0 := by
  refine ⟨⟨by simp only [twoNet, Net.ids, Chain.ids]; decide, ?_⟩, by simp [zeroStore], rfl, rfl⟩
  simp [twoNet, Net.Wired, Chain.Wired, zeroStore, Net.mod, Linear.mod, PureLayer.toMod]

/-- `Linear(2, 3)` -/
noncomputable def linNet : Net [2] 2 [3] 3 (3 * 2 + 3) := .linear 20 0 (some 1) 2 3 (by norm_num) (by norm_num)

theorem linNet_ok : linNet.Ok exStore := by
  refine ⟨by simp [linNet, Net.ids], ?_⟩
  simp [linNet, Net.Wired, exStore]

example : linNet.Newton (gaussianGradient ⟨.sum, .full, .exact⟩ linNet.mod exInput (some clsTarget) .weight)
    (gaussianGgn ⟨.sum, .full, .exact⟩ linNet.mod exInput .weight) (gaussianForward ⟨.sum, .full, .exact⟩ linNet.mod exInput (some clsTarget)) exStore :=
  C74_newton linNet_ok (by simp [linNet, exStore, Net.mod, Linear.mod, PureLayer.toMod]) (by simp [linNet, Net.paramIds]) (by norm_num) (by norm_num) exInput_isBatch clsTarget_isBatch (.inl rfl) rfl rfl fun h => h

end Props
end NNJ
