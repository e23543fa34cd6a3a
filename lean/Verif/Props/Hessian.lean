import Verif.Proofs.Hessian
import Verif.Props.Likelihood

/-!
# C72: where the Gauss-Newton matrices are second derivatives

For a piecewise linear network (Linear, Conv2d, ReLU, MaxPool2d, Upsample, Flatten, Reshape, and Sequential and SkipConnection of
these; also user-defined elementwise layers that are piecewise linear) and inputs at which it is differentiable, `ggn` returns exact
second derivatives of the log-likelihood, and `jTmjp` exact Hessian blocks of any loss whose Hessian in the outputs is passed as
the metric.  For other networks the matrices differ from the Hessian: `C72_tanh`.
-/

namespace NNJ
namespace Props
open Matrix LogLik

variable {s s' : List Nat} {n k p : Nat} {N : Net s n s' k p} {st : Store ℝ}
variable {B : Nat} {X : Fin B → Fin n → ℝ} {x target : Tensor ℝ} {T : Fin B → Fin k → ℝ} {cfg : Cfg}

/-- C72: let `Z b` be the Hessians, in the outputs, of losses `L b` of the samples.  The blocks that `jTmjp(x, None, Z, wrt="weight")`
returns are the diagonal blocks, one for each layer with parameters, of the Hessian of the total loss in the weights: in every
direction `v` that changes the weights of one layer only, the second derivative is that given by the blocks. -/
theorem C72_blocks (h : N.Ok st) (hn : N.paramIds.Nodup) (hp : 0 < p) (hB : 0 < B) (hx : IsBatch x B s n X)
    (hN : N.PieceLin) (hs : ∀ b, N.sem.smooth (N.w st) (X b)) :
    ∃ wt w, Returns N.mod.getWeight st wt ∧ IsVec1 wt p w ∧ ∀ fromDiag A Z, MetricArg fromDiag A B k Z →
      ∃ r G, Returns (N.mod.jTmjp x none (some A) .weight fromDiag false false) st r ∧ N.Blocks r B G ∧
        ∀ L : Fin B → (Fin k → ℝ) → ℝ, (∀ b, HasHess (L b) (Z b) (forwardMap N.mod st s (X b))) →
          ∀ v, N.InLayer v → HasSecondDerivAt (fun t => ∑ b, L b (weightMap N.mod st x b (w + t • v))) (∑ b, v ⬝ᵥ (G b *ᵥ v)) 0 := by
  obtain ⟨wt, hwt, hw⟩ := h.getWeight hn hp
  refine ⟨wt, _, by rw [Returns, hwt], hw, fun fd A Z hA => ?_⟩
  obtain ⟨r, hr, hG⟩ := (h.jTWf hB hx fd hA).1 hp
  refine ⟨r, _, hr, hG, fun L hL v hv => ?_⟩
  refine HasSecondDerivAt.sum fun b => ?_
  rw [h.weightMap_eq hn hB hx b]
  exact N.second_deriv hN (hs b) hv (by have := hL b; rwa [← out_eq h] at this)

/-- C72: for `LogGaussian` with `metric_shape="diag"`, the `i`-th entry of `ggn(x, model, wrt="weight")` is the second derivative of
`forward(x, model, target)` in the `i`-th weight, for any target. -/
theorem C72_gaussian_weight (h : N.Ok st) (hh : st.hooks N.mod.id = []) (hn : N.paramIds.Nodup) (hp : 0 < p) (hB : 0 < B)
    (hx : IsBatch x B s n X) (ht : IsBatch target B s' k T) (hagg : cfg.agg = .sum ∨ cfg.agg = .average) (hsh : cfg.shape = .diag)
    (hbp : cfg.backprop = .exact) (hN : N.PieceLin) (hs : ∀ b, N.sem.smooth (N.w st) (X b)) :
    ∃ wt w g G, Returns N.mod.getWeight st wt ∧ IsVec1 wt p w ∧ Returns (gaussianGgn cfg N.mod x .weight) st (.tensor g) ∧ IsVec1 g p G ∧
      (∀ w' : Fin p → ℝ, ∃ a, ReturnsScalar (do N.mod.setWeight (ofVec w'); gaussianForward cfg N.mod x (some target)) st a) ∧
      ∀ i, HasSecondDerivAt (fun t => scalarOf (do N.mod.setWeight (ofVec (w + Pi.single i t)); gaussianForward cfg N.mod x (some target)) st) (G i) 0 :=
  hess_weight_diag (LL := gaussLL) h hh hn hp (fun h hh => gaussianForward_scalar h hh hB hx ht hagg) (gaussianGgn_run h hh hB hx hagg hbp) hsh
    (fun _ => gaussLL_hess _ _) hN hs

/-- C72: the same for `LogBinaryBernoulli`. -/
theorem C72_binary_weight (h : N.Ok st) (hh : st.hooks N.mod.id = []) (hn : N.paramIds.Nodup) (hp : 0 < p) (hB : 0 < B)
    (hx : IsBatch x B s n X) (ht : IsBatch target B s' k T) (hagg : cfg.agg = .sum ∨ cfg.agg = .average) (hsh : cfg.shape = .diag)
    (hbp : cfg.backprop = .exact) (hN : N.PieceLin) (hs : ∀ b, N.sem.smooth (N.w st) (X b)) :
    ∃ wt w g G, Returns N.mod.getWeight st wt ∧ IsVec1 wt p w ∧ Returns (binaryGgn cfg N.mod x .weight) st (.tensor g) ∧ IsVec1 g p G ∧
      (∀ w' : Fin p → ℝ, ∃ a, ReturnsScalar (do N.mod.setWeight (ofVec w'); binaryForward cfg N.mod x (some target)) st a) ∧
      ∀ i, HasSecondDerivAt (fun t => scalarOf (do N.mod.setWeight (ofVec (w + Pi.single i t)); binaryForward cfg N.mod x (some target)) st) (G i) 0 :=
  hess_weight_diag (LL := binLL) h hh hn hp (fun h hh => binaryForward_scalar h hh hB hx ht hagg) (binaryGgn_run h hh hB hx hagg hbp) hsh
    (fun _ => binLL_hess _ _) hN hs

/-- C72: the same for `LogBernoulli`, with outputs that are one class vector and targets whose sums are 1. -/
theorem C72_bernoulli_weight {c : Nat} {N : Net s n [c] c p} {T : Fin B → Fin c → ℝ} (h : N.Ok st) (hh : st.hooks N.mod.id = [])
    (hn : N.paramIds.Nodup) (hp : 0 < p) (hB : 0 < B) (hx : IsBatch x B s n X) (ht : IsBatch target B [c] c T) (hsum : ∀ b, ∑ j, T b j = 1)
    (hagg : cfg.agg = .sum ∨ cfg.agg = .average) (hsh : cfg.shape = .diag)
    (hbp : cfg.backprop = .exact) (hN : N.PieceLin) (hs : ∀ b, N.sem.smooth (N.w st) (X b)) :
    ∃ wt w g G, Returns N.mod.getWeight st wt ∧ IsVec1 wt p w ∧ Returns (bernoulliGgn cfg N.mod x .weight) st (.tensor g) ∧ IsVec1 g p G ∧
      (∀ w' : Fin p → ℝ, ∃ a, ReturnsScalar (do N.mod.setWeight (ofVec w'); bernoulliForward cfg N.mod x (some target)) st a) ∧
      ∀ i, HasSecondDerivAt (fun t => scalarOf (do N.mod.setWeight (ofVec (w + Pi.single i t)); bernoulliForward cfg N.mod x (some target)) st) (G i) 0 :=
  hess_weight_diag (LL := classLL c) h hh hn hp (fun h hh => bernoulliForward_scalar h hh hB hx ht rfl hagg) (bernoulliGgn_run h hh hB hx hagg hbp) hsh
    (fun b => classLL_hess _ _ fun i => by rw [classRow_univ]; exact hsum b) hN hs

/-- C72: for a single layer with parameters (Linear, Conv2d) and `metric_shape="full"`, the matrix is the whole Hessian in the weights,
for the three likelihoods and without any condition on the inputs. -/
theorem C72_layer (h : N.Ok st) (hh : st.hooks N.mod.id = []) (hn : N.paramIds.Nodup) (hp : 0 < p) (hB : 0 < B)
    (hx : IsBatch x B s n X) (ht : IsBatch target B s' k T) (hagg : cfg.agg = .sum ∨ cfg.agg = .average) (hsh : cfg.shape = .full)
    (hbp : cfg.backprop = .exact) (hN : ¬ N.Container) :
    (∃ wt w g G, Returns N.mod.getWeight st wt ∧ IsVec1 wt p w ∧ Returns (gaussianGgn cfg N.mod x .weight) st (.tensor g) ∧ IsMat1 g p p G ∧
      (∀ w' : Fin p → ℝ, ∃ a, ReturnsScalar (do N.mod.setWeight (ofVec w'); gaussianForward cfg N.mod x (some target)) st a) ∧
      HasHessAt (fun w' => scalarOf (do N.mod.setWeight (ofVec w'); gaussianForward cfg N.mod x (some target)) st) G w) ∧
    (∃ wt w g G, Returns N.mod.getWeight st wt ∧ IsVec1 wt p w ∧ Returns (binaryGgn cfg N.mod x .weight) st (.tensor g) ∧ IsMat1 g p p G ∧
      (∀ w' : Fin p → ℝ, ∃ a, ReturnsScalar (do N.mod.setWeight (ofVec w'); binaryForward cfg N.mod x (some target)) st a) ∧
      HasHessAt (fun w' => scalarOf (do N.mod.setWeight (ofVec w'); binaryForward cfg N.mod x (some target)) st) G w) :=
  ⟨hess_weight_full (LL := gaussLL) h hh hn hp (fun h hh => gaussianForward_scalar h hh hB hx ht hagg) (gaussianGgn_run h hh hB hx hagg hbp) hsh
    (fun _ => gaussLL_hess _ _) hN,
   hess_weight_full (LL := binLL) h hh hn hp (fun h hh => binaryForward_scalar h hh hB hx ht hagg) (binaryGgn_run h hh hB hx hagg hbp) hsh
    (fun _ => binLL_hess _ _) hN⟩

/-- C72: `LogBernoulli`, as `C72_layer`. -/
theorem C72_layer_bernoulli {c : Nat} {N : Net s n [c] c p} {T : Fin B → Fin c → ℝ} (h : N.Ok st) (hh : st.hooks N.mod.id = [])
    (hn : N.paramIds.Nodup) (hp : 0 < p) (hB : 0 < B) (hx : IsBatch x B s n X) (ht : IsBatch target B [c] c T) (hsum : ∀ b, ∑ j, T b j = 1)
    (hagg : cfg.agg = .sum ∨ cfg.agg = .average) (hsh : cfg.shape = .full) (hbp : cfg.backprop = .exact) (hN : ¬ N.Container) :
    ∃ wt w g G, Returns N.mod.getWeight st wt ∧ IsVec1 wt p w ∧ Returns (bernoulliGgn cfg N.mod x .weight) st (.tensor g) ∧ IsMat1 g p p G ∧
      (∀ w' : Fin p → ℝ, ∃ a, ReturnsScalar (do N.mod.setWeight (ofVec w'); bernoulliForward cfg N.mod x (some target)) st a) ∧
      HasHessAt (fun w' => scalarOf (do N.mod.setWeight (ofVec w'); bernoulliForward cfg N.mod x (some target)) st) G w :=
  hess_weight_full (LL := classLL c) h hh hn hp (fun h hh => bernoulliForward_scalar h hh hB hx ht rfl hagg) (bernoulliGgn_run h hh hB hx hagg hbp) hsh
    (fun b => classLL_hess _ _ fun i => by rw [classRow_univ]; exact hsum b) hN

/-- C72: `LogGaussian.ggn(wrt="input")` is the sum (mean) over the batch of the Hessians `G b` of `forward` in the single samples: the full
matrix, or its diagonal. -/
theorem C72_gaussian_input (h : N.Ok st) (hh : st.hooks N.mod.id = []) (hB : 0 < B) (hx : IsBatch x B s n X) (T : Fin B → Fin k → ℝ)
    (hagg : cfg.agg = .sum ∨ cfg.agg = .average) (hbp : cfg.backprop = .exact) (hN : N.PieceLin) (hs : ∀ b, N.sem.smooth (N.w st) (X b)) :
    ∃ G : Fin B → Matrix (Fin n) (Fin n) ℝ,
      (cfg.shape = .diag → ∃ g, Returns (gaussianGgn cfg N.mod x .input) st (.tensor g) ∧ IsVec1 g n fun i => aggFactor cfg.agg B * ∑ b, G b i i) ∧
      (cfg.shape = .full → ∃ g, Returns (gaussianGgn cfg N.mod x .input) st (.tensor g) ∧ IsMat1 g n n fun i j => aggFactor cfg.agg B * ∑ b, G b i j) ∧
      ∀ b, HasHessAt (fun z => scalarOf (gaussianForward cfg N.mod (ofSample s z) (some (ofSample s' (T b)))) st) (G b) (X b) :=
  hess_input (LL := gaussLL) hagg (fun hx ht => gaussianForward_scalar h hh Nat.one_pos hx ht hagg) (gaussianGgn_run h hh hB hx hagg hbp)
    (fun _ => gaussLL_hess _ _) hN hs

/-- C72: the same for `LogBinaryBernoulli`. -/
theorem C72_binary_input (h : N.Ok st) (hh : st.hooks N.mod.id = []) (hB : 0 < B) (hx : IsBatch x B s n X) (T : Fin B → Fin k → ℝ)
    (hagg : cfg.agg = .sum ∨ cfg.agg = .average) (hbp : cfg.backprop = .exact) (hN : N.PieceLin) (hs : ∀ b, N.sem.smooth (N.w st) (X b)) :
    ∃ G : Fin B → Matrix (Fin n) (Fin n) ℝ,
      (cfg.shape = .diag → ∃ g, Returns (binaryGgn cfg N.mod x .input) st (.tensor g) ∧ IsVec1 g n fun i => aggFactor cfg.agg B * ∑ b, G b i i) ∧
      (cfg.shape = .full → ∃ g, Returns (binaryGgn cfg N.mod x .input) st (.tensor g) ∧ IsMat1 g n n fun i j => aggFactor cfg.agg B * ∑ b, G b i j) ∧
      ∀ b, HasHessAt (fun z => scalarOf (binaryForward cfg N.mod (ofSample s z) (some (ofSample s' (T b)))) st) (G b) (X b) :=
  hess_input (LL := binLL) hagg (fun hx ht => binaryForward_scalar h hh Nat.one_pos hx ht hagg) (binaryGgn_run h hh hB hx hagg hbp)
    (fun _ => binLL_hess _ _) hN hs

/-- C72: the same for `LogBernoulli`, with outputs that are one class vector and targets whose sums are 1. -/
theorem C72_bernoulli_input {c : Nat} {N : Net s n [c] c p} (h : N.Ok st) (hh : st.hooks N.mod.id = []) (hB : 0 < B) (hx : IsBatch x B s n X)
    (T : Fin B → Fin c → ℝ) (hsum : ∀ b, ∑ j, T b j = 1)
    (hagg : cfg.agg = .sum ∨ cfg.agg = .average) (hbp : cfg.backprop = .exact) (hN : N.PieceLin) (hs : ∀ b, N.sem.smooth (N.w st) (X b)) :
    ∃ G : Fin B → Matrix (Fin n) (Fin n) ℝ,
      (cfg.shape = .diag → ∃ g, Returns (bernoulliGgn cfg N.mod x .input) st (.tensor g) ∧ IsVec1 g n fun i => aggFactor cfg.agg B * ∑ b, G b i i) ∧
      (cfg.shape = .full → ∃ g, Returns (bernoulliGgn cfg N.mod x .input) st (.tensor g) ∧ IsMat1 g n n fun i j => aggFactor cfg.agg B * ∑ b, G b i j) ∧
      ∀ b, HasHessAt (fun z => scalarOf (bernoulliForward cfg N.mod (ofSample s z) (some (ofSample [c] (T b)))) st) (G b) (X b) :=
  hess_input (LL := classLL c) hagg (fun hx ht => bernoulliForward_scalar h hh Nat.one_pos hx ht rfl hagg) (bernoulliGgn_run h hh hB hx hagg hbp)
    (fun b => classLL_hess _ _ fun i => by rw [classRow_univ]; exact hsum b) hN hs

/-- the layer `Tanh()` on one number -/
noncomputable def tanhNet : Net [1] 1 [1] 1 0 := .act .tanh 9 [1] 1 rfl (by norm_num)

/-- C72, the boundary: for the layer `Tanh()` on one number `a` and a target `t`, what `LogGaussian.ggn(wrt="input")` returns is the second
derivative of `forward` only if `a = 0` or the target is met exactly. -/
theorem C72_tanh (st : Store ℝ) (hh : st.hooks 9 = []) (a t : ℝ) (hagg : cfg.agg = .sum ∨ cfg.agg = .average) (hsh : cfg.shape = .diag)
    (hbp : cfg.backprop = .exact) :
    ∃ g G, Returns (gaussianGgn cfg tanhNet.mod (ofSample [1] fun _ : Fin 1 => a) .input) st (.tensor g) ∧ IsVec1 g 1 G ∧
      (HasSecondDerivAt (fun u => scalarOf (gaussianForward cfg tanhNet.mod (ofSample [1] fun _ : Fin 1 => u) (some (ofSample [1] fun _ : Fin 1 => t))) st) (G 0) a ↔
        a = 0 ∨ t = Real.tanh a) := by
  have h : tanhNet.Ok st := ⟨by simp [tanhNet, Net.ids], trivial⟩
  have hh' : st.hooks tanhNet.mod.id = [] := hh
  obtain ⟨g, hg, hG⟩ := (gaussianGgn_run h hh' Nat.one_pos (ofSample_isBatch (s := [1]) fun _ : Fin 1 => a) hagg hbp).inputDiag hsh
  refine ⟨g, _, hg, hG, ?_⟩
  have e : (fun u => scalarOf (gaussianForward cfg tanhNet.mod (ofSample [1] fun _ : Fin 1 => u) (some (ofSample [1] fun _ : Fin 1 => t))) st) =
      fun u => -(1 / 2) * (Real.tanh u - t) ^ 2 := by
    funext u
    rw [(gaussianForward_scalar h hh' Nat.one_pos (ofSample_isBatch _) (ofSample_isBatch _) hagg).scalarOf_eq, aggFactor_one hagg]
    simp [gaussLL, Net.out, tanhNet, Net.sem, Act.sem, Sem.leaf0, Sem.leaf, Act.fn]
  have eJ : tanhNet.J st (fun _ : Fin 1 => a) = diagonal fun _ => 1 - Real.tanh a * Real.tanh a := rfl
  have eG : aggFactor cfg.agg 1 * ∑ _b : Fin 1, ((tanhNet.J st (fun _ : Fin 1 => a))ᵀ * diagonal (fun _ : Fin 1 => (-1 : ℝ)) *
      tanhNet.J st (fun _ : Fin 1 => a) : Matrix (Fin 1) (Fin 1) ℝ) 0 0 = -(1 - Real.tanh a * Real.tanh a) ^ 2 := by
    rw [aggFactor_one hagg, eJ, diagonal_transpose, diagonal_mul_diagonal, diagonal_mul_diagonal]
    simp only [Finset.univ_unique, Finset.sum_singleton, diagonal_apply_eq]
    ring
  rw [e, eG]
  have hd : ∀ u, HasDerivAt Real.tanh (1 - Real.tanh u * Real.tanh u) u := fun u => act_hasDerivAt .tanh u trivial
  have h1 : ∀ u, HasDerivAt (fun u => -(1 / 2) * (Real.tanh u - t) ^ 2) ((t - Real.tanh u) * (1 - Real.tanh u * Real.tanh u)) u := fun u => by
    refine ((((hd u).sub_const t).pow 2).const_mul (-(1 / 2))).congr_deriv ?_
    norm_num; ring
  have h2 : HasDerivAt (fun u => (t - Real.tanh u) * (1 - Real.tanh u * Real.tanh u))
      (-(1 - Real.tanh a * Real.tanh a) ^ 2 + (t - Real.tanh a) * (-2 * Real.tanh a * (1 - Real.tanh a * Real.tanh a))) a := by
    refine (((hd a).const_sub t).mul (((hd a).mul (hd a)).const_sub 1)).congr_deriv ?_
    simp only [Pi.mul_apply]
    ring
  have hS : HasSecondDerivAt (fun u => -(1 / 2) * (Real.tanh u - t) ^ 2) _ a := ⟨_, Filter.Eventually.of_forall h1, h2⟩
  have hpos : 1 - Real.tanh a * Real.tanh a ≠ 0 := by
    have := Real.cosh_sq a
    have hc := Real.cosh_pos a
    rw [Real.tanh_eq_sinh_div_cosh]
    have : 1 - Real.sinh a / Real.cosh a * (Real.sinh a / Real.cosh a) = 1 / Real.cosh a ^ 2 := by field_simp; linarith
    rw [this]; positivity
  constructor
  · intro h3
    have h4 := h3.unique hS
    have h5 : (t - Real.tanh a) * Real.tanh a * (1 - Real.tanh a * Real.tanh a) = 0 := by linarith
    rcases mul_eq_zero.1 h5 with h6 | h6
    · rcases mul_eq_zero.1 h6 with h7 | h7
      · exact .inr (by linarith)
      · refine .inl ?_
        rw [Real.tanh_eq_sinh_div_cosh, div_eq_zero_iff] at h7
        exact Real.sinh_eq_zero.1 (h7.resolve_right (Real.cosh_pos a).ne')
    · exact absurd h6 hpos
  · intro h3
    have : -(1 - Real.tanh a * Real.tanh a) ^ 2 =
        -(1 - Real.tanh a * Real.tanh a) ^ 2 + (t - Real.tanh a) * (-2 * Real.tanh a * (1 - Real.tanh a * Real.tanh a)) := by
      rcases h3 with rfl | rfl <;> simp
    rw [this]; exact hS

/-! ### the hypotheses can be met -/

/-- `Sequential(Linear(2, 3), ReLU(), Linear(3, 2, bias=False))` -/
noncomputable def pwNet : Net [2] 2 [2] 2 (0 + (3 * 2 + 3) + 0 + (2 * 3 + 0)) :=
  .seq 0 (.snoc (.snoc (.snoc (.nil [2] 2 rfl (by norm_num))
    (.linear 1 0 (some 1) 2 3 (by norm_num) (by norm_num)))
    (.act .relu 2 [3] 3 rfl (by norm_num)))
    (.linear 3 2 none 3 2 (by norm_num) (by norm_num)))

theorem pwNet_ok : pwNet.Ok exStore := by
  refine ⟨by simp only [pwNet, Net.ids, Chain.ids]; decide, ?_⟩
  simp [pwNet, Net.Wired, Chain.Wired, exStore, Net.mod, Linear.mod, Activation.toMod, PureLayer.toMod]
theorem pwNet_hooks : exStore.hooks pwNet.mod.id = [] := by simp [pwNet, exStore, Net.mod, Sequential.mod]
theorem pwNet_pieceLin : pwNet.PieceLin := by simp [pwNet, Net.PieceLin, Chain.PieceLin, Act.PieceLin]
theorem pwNet_paramIds : pwNet.paramIds = [0, 1, 2] := by simp [pwNet, Net.paramIds, Chain.paramIds]

/-- the inputs of the ReLU are positive -/
theorem pwNet_smooth (b : Fin 2) : pwNet.sem.smooth (pwNet.w exStore) (fun i => (2 * b + i : ℝ)) := by
  have ew : pwNet.w exStore = Fin.append (Fin.append (Fin.append (fun _ => 0) (linearW 0 (some 1) 2 3 exStore)) (fun _ => 0))
      (linearW 2 none 3 2 exStore) := by
    simp only [pwNet, Net.w, Chain.w]; rfl
  rw [ew]
  simp [pwNet, Net.sem, Chain.sem, Sem.comp, Sem.id, linearSem, Act.sem, Sem.leaf0, Sem.leaf, Act.smoothAt, Act.fn, linearF,
    wl, wr, linearW, exStore, Fin.append, Fin.addCases, Fin.sum_univ_succ, finProdFinEquiv, biasLen]
  have hb : (0 : ℝ) ≤ (b : Nat) := Nat.cast_nonneg _
  intro i
  fin_cases i <;> simp <;> positivity

example : ∃ wt w g G, Returns pwNet.mod.getWeight exStore wt ∧ IsVec1 wt 15 w ∧
    Returns (gaussianGgn exCfg pwNet.mod exInput .weight) exStore (.tensor g) ∧ IsVec1 g 15 G ∧
    (∀ w' : Fin 15 → ℝ, ∃ a, ReturnsScalar (do pwNet.mod.setWeight (ofVec w'); gaussianForward exCfg pwNet.mod exInput (some exInput)) exStore a) ∧
    ∀ i, HasSecondDerivAt (fun t => scalarOf (do pwNet.mod.setWeight (ofVec (w + Pi.single i t)); gaussianForward exCfg pwNet.mod exInput (some exInput)) exStore)
      (G i) 0 :=
  C72_gaussian_weight pwNet_ok pwNet_hooks (by rw [pwNet_paramIds]; decide) (by norm_num) (by norm_num) exInput_isBatch exInput_isBatch (.inr rfl) rfl rfl
    pwNet_pieceLin pwNet_smooth

example : ∃ G : Fin 2 → Matrix (Fin 2) (Fin 2) ℝ,
    (ShapeArg.diag = .diag → ∃ g, Returns (binaryGgn exCfg pwNet.mod exInput .input) exStore (.tensor g) ∧ IsVec1 g 2 fun i => aggFactor .average 2 * ∑ b, G b i i) ∧
    (ShapeArg.diag = .full → ∃ g, Returns (binaryGgn exCfg pwNet.mod exInput .input) exStore (.tensor g) ∧ IsMat1 g 2 2 fun i j => aggFactor .average 2 * ∑ b, G b i j) ∧
    ∀ b : Fin 2, HasHessAt (fun z => scalarOf (binaryForward exCfg pwNet.mod (ofSample [2] z) (some (ofSample [2] fun _ : Fin 2 => (1 : ℝ)))) exStore) (G b)
      (fun i => 2 * b + i) :=
  C72_binary_input (cfg := exCfg) pwNet_ok pwNet_hooks (by norm_num) exInput_isBatch (fun _ _ => 1) (.inr rfl) rfl pwNet_pieceLin pwNet_smooth

/-- a direction within the first layer -/
example : pwNet.InLayer (fun i => if i.val < 9 then 1 else 0) := by
  intro i j hi hj
  have hi' : i.val < 9 := by by_contra h; exact hi (if_neg h)
  have hj' : j.val < 9 := by by_contra h; exact hj (if_neg h)
  have ei : i = Fin.castAdd (2 * 3 + 0) (Fin.castAdd 0 (Fin.natAdd 0 ⟨i.val, hi'⟩)) := Fin.ext (by simp)
  have ej : j = Fin.castAdd (2 * 3 + 0) (Fin.castAdd 0 (Fin.natAdd 0 ⟨j.val, hj'⟩)) := Fin.ext (by simp)
  rw [ei, ej]
  simp only [pwNet, Net.sem, Chain.sem, Sem.comp, Fin.addCases_left, Fin.addCases_right]
  rfl

/-- LeakyReLU, as a user-defined layer, is piecewise linear -/
example : (Act.custom (fun a => if 0 < a then a else a / 100) fun a _ => if 0 < a then 1 else 1 / 100).PieceLin := by
  intro a ha
  by_cases h0 : a = 0
  · exfalso
    subst h0
    simp only [lt_irrefl, if_false] at ha
    have h1 := ha.hasDerivWithinAt (s := Set.Ioi 0)
    have h2 : HasDerivWithinAt (fun a : ℝ => if 0 < a then a else a / 100) 1 (Set.Ioi 0) 0 :=
      ((hasDerivAt_id (0 : ℝ)).hasDerivWithinAt).congr (fun y hy => if_pos hy) (by simp)
    have := (uniqueDiffWithinAt_Ioi (0 : ℝ)).eq_deriv _ h1 h2
    norm_num at this
  · rcases lt_or_gt_of_ne h0 with h | h
    · filter_upwards [gt_mem_nhds h] with y hy
      simp only [not_lt.2 h.le, not_lt.2 hy.le, if_false]
      ring
    · filter_upwards [lt_mem_nhds h] with y hy
      simp [h, hy]

end Props
end NNJ
