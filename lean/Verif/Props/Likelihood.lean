import Verif.Proofs.LogLikGrad
import Verif.Props.Jacobian

/-!
# C22 - C26: the likelihoods

Hypotheses common to the theorems: the network `N` is properly constructed in the state `st` and is
not itself a child of a Sequential (`st.hooks N.mod.id = []`); `x` is a batch of `B > 0` samples `X b`;
`target` is a batch of targets `T b` of the shape of the outputs; `aggregate_batch` is "sum" or
"average".  `aggFactor` is 1 for "sum" and `1 / B` for "average".
-/

namespace NNJ
namespace Props
open Matrix LogLik

variable {s s' : List Nat} {n k p : Nat} {N : Net s n s' k p} {st : Store ℝ}
variable {B : Nat} {X : Fin B → Fin n → ℝ} {x target : Tensor ℝ} {T : Fin B → Fin k → ℝ} {cfg : Cfg}

theorem out_eq (h : N.Ok st) (z : Fin n → ℝ) : N.out st z = forwardMap N.mod st s z := by rw [h.forwardMap_eq]; rfl

/-! ### C22: LogGaussian -/

/-- C22: `LogGaussian.forward` returns the sum (mean) over the batch of the log-densities. -/
theorem C22_forward (h : N.Ok st) (hh : st.hooks N.mod.id = []) (hB : 0 < B) (hx : IsBatch x B s n X) (ht : IsBatch target B s' k T)
    (hagg : cfg.agg = .sum ∨ cfg.agg = .average) :
    ReturnsScalar (gaussianForward cfg N.mod x (some target)) st
      (aggFactor cfg.agg B * ∑ b, gaussLL (forwardMap N.mod st s (X b)) (T b)) := by
  simpa only [out_eq h] using gaussianForward_scalar h hh hB hx ht hagg

/-- C22: `LogGaussian.gradient(wrt="input")` returns the sum (mean) over the batch of the gradients
`G b` of `forward` in the single sample `X b`. -/
theorem C22_gradient_input (h : N.Ok st) (hh : st.hooks N.mod.id = []) (hB : 0 < B) (hx : IsBatch x B s n X) (ht : IsBatch target B s' k T)
    (hagg : cfg.agg = .sum ∨ cfg.agg = .average) (hs : ∀ b, N.sem.smooth (N.w st) (X b)) :
    ∃ (g : Tensor ℝ) (G : Fin B → Fin n → ℝ), Returns (gaussianGradient cfg N.mod x (some target) .input) st (.tensor g) ∧ IsVec1 g n (fun i => aggFactor cfg.agg B * ∑ b, G b i) ∧
      ∀ b, HasGrad (fun z => scalarOf (gaussianForward cfg N.mod (ofSample s z) (some (ofSample s' (T b)))) st) (G b) (X b) :=
  grad_input (LL := gaussLL) (U := fun y t i => t i - y i) hagg (fun hx ht => gaussianForward_scalar h hh Nat.one_pos hx ht hagg)
    (gaussianGradient_run h hh hB hx ht hagg) (fun _ => gaussLL_grad _ _) hs

/-- C22: `LogGaussian.gradient(wrt="weight")` returns the gradient, at the current weights, of the map
`w ↦ set_weight(w); forward(x, model, target)`. -/
theorem C22_gradient_weight (h : N.Ok st) (hh : st.hooks N.mod.id = []) (hn : N.paramIds.Nodup) (hp : 0 < p) (hB : 0 < B)
    (hx : IsBatch x B s n X) (ht : IsBatch target B s' k T) (hagg : cfg.agg = .sum ∨ cfg.agg = .average) (hs : ∀ b, N.sem.smooth (N.w st) (X b)) :
    ∃ wt w g G, Returns N.mod.getWeight st wt ∧ IsVec1 wt p w ∧ Returns (gaussianGradient cfg N.mod x (some target) .weight) st (.tensor g) ∧
      IsVec1 g p G ∧ (∀ w' : Fin p → ℝ, ∃ a, ReturnsScalar (do N.mod.setWeight (ofVec w'); gaussianForward cfg N.mod x (some target)) st a) ∧
      HasGrad (fun w' => scalarOf (do N.mod.setWeight (ofVec w'); gaussianForward cfg N.mod x (some target)) st) G w :=
  grad_weight (LL := gaussLL) (U := fun y t i => t i - y i) h hh hn hp (fun h hh => gaussianForward_scalar h hh hB hx ht hagg)
    (gaussianGradient_run h hh hB hx ht hagg) (fun _ => gaussLL_grad _ _) hs

/-- C22, C23, C24: for a model without parameters all three gradients in the weights raise TypeError
(`torch.sum(None)`). -/
theorem C22_no_parameters (h : N.Ok st) (hh : st.hooks N.mod.id = []) (hB : 0 < B) (hx : IsBatch x B s n X) (ht : IsBatch target B s' k T)
    (hagg : cfg.agg = .sum ∨ cfg.agg = .average) (hp : p = 0) :
    (gaussianGradient cfg N.mod x (some target) .weight st).1 = .error .type ∧
    (binaryGradient cfg N.mod x (some target) .weight st).1 = .error .type ∧
    (s' ≠ [] → (bernoulliGradient cfg N.mod x (some target) .weight st).1 = .error .type) := by
  refine ⟨(gaussianGradient_run h hh hB hx ht hagg).2.2 hp, (binaryGradient_run h hh hB hx ht hagg).2.2 hp, fun hs => ?_⟩
  exact (bernoulliGradient_run h hh hB hx ht (List.getLast?_eq_some_getLast hs) hagg).2.2 hp

/-! ### C23: LogBinaryBernoulli -/

/-- C23: `LogBinaryBernoulli.forward` returns the sum (mean) over the batch of the log-likelihoods, for any real
targets. -/
theorem C23_forward (h : N.Ok st) (hh : st.hooks N.mod.id = []) (hB : 0 < B) (hx : IsBatch x B s n X) (ht : IsBatch target B s' k T)
    (hagg : cfg.agg = .sum ∨ cfg.agg = .average) :
    ReturnsScalar (binaryForward cfg N.mod x (some target)) st
      (aggFactor cfg.agg B * ∑ b, binLL (forwardMap N.mod st s (X b)) (T b)) := by
  simpa only [out_eq h] using binaryForward_scalar h hh hB hx ht hagg

/-- C23: as `C22_gradient_input`. -/
theorem C23_gradient_input (h : N.Ok st) (hh : st.hooks N.mod.id = []) (hB : 0 < B) (hx : IsBatch x B s n X) (ht : IsBatch target B s' k T)
    (hagg : cfg.agg = .sum ∨ cfg.agg = .average) (hs : ∀ b, N.sem.smooth (N.w st) (X b)) :
    ∃ (g : Tensor ℝ) (G : Fin B → Fin n → ℝ), Returns (binaryGradient cfg N.mod x (some target) .input) st (.tensor g) ∧ IsVec1 g n (fun i => aggFactor cfg.agg B * ∑ b, G b i) ∧
      ∀ b, HasGrad (fun z => scalarOf (binaryForward cfg N.mod (ofSample s z) (some (ofSample s' (T b)))) st) (G b) (X b) :=
  grad_input (LL := binLL) (U := fun y t i => t i - sigma (y i)) hagg (fun hx ht => binaryForward_scalar h hh Nat.one_pos hx ht hagg)
    (binaryGradient_run h hh hB hx ht hagg) (fun _ => binLL_grad _ _) hs

/-- C23: as `C22_gradient_weight`. -/
theorem C23_gradient_weight (h : N.Ok st) (hh : st.hooks N.mod.id = []) (hn : N.paramIds.Nodup) (hp : 0 < p) (hB : 0 < B)
    (hx : IsBatch x B s n X) (ht : IsBatch target B s' k T) (hagg : cfg.agg = .sum ∨ cfg.agg = .average) (hs : ∀ b, N.sem.smooth (N.w st) (X b)) :
    ∃ wt w g G, Returns N.mod.getWeight st wt ∧ IsVec1 wt p w ∧ Returns (binaryGradient cfg N.mod x (some target) .weight) st (.tensor g) ∧
      IsVec1 g p G ∧ (∀ w' : Fin p → ℝ, ∃ a, ReturnsScalar (do N.mod.setWeight (ofVec w'); binaryForward cfg N.mod x (some target)) st a) ∧
      HasGrad (fun w' => scalarOf (do N.mod.setWeight (ofVec w'); binaryForward cfg N.mod x (some target)) st) G w :=
  grad_weight (LL := binLL) (U := fun y t i => t i - sigma (y i)) h hh hn hp (fun h hh => binaryForward_scalar h hh hB hx ht hagg)
    (binaryGradient_run h hh hB hx ht hagg) (fun _ => binLL_grad _ _) hs

/-! ### C24: LogBernoulli -/

/-- C24: `LogBernoulli.forward` returns the sum (mean) over the batch of the log-likelihoods, with the
last dimension of the outputs (of length `c`) as classes; any real targets. -/
theorem C24_forward {c : Nat} (h : N.Ok st) (hh : st.hooks N.mod.id = []) (hB : 0 < B) (hx : IsBatch x B s n X) (ht : IsBatch target B s' k T)
    (hc : s'.getLast? = some c) (hagg : cfg.agg = .sum ∨ cfg.agg = .average) :
    ReturnsScalar (bernoulliForward cfg N.mod x (some target)) st
      (aggFactor cfg.agg B * ∑ b, classLL c (forwardMap N.mod st s (X b)) (T b)) := by
  simpa only [out_eq h] using bernoulliForward_scalar h hh hB hx ht hc hagg

theorem classLL_grad_one {c : Nat} (y t : Fin k → ℝ) (ht : ∀ i, ∑ j ∈ classRow c i, t j = 1) :
    HasGrad (fun y => classLL c y t) (fun i => t i - softmax c y i) y := by
  simpa only [ht, one_mul] using classLL_grad (c := c) y t

/-- C24: for targets whose class sums are 1, `gradient(wrt="input")` is the sum (mean) of the gradients. -/
theorem C24_gradient_input {c : Nat} (h : N.Ok st) (hh : st.hooks N.mod.id = []) (hB : 0 < B) (hx : IsBatch x B s n X) (ht : IsBatch target B s' k T)
    (hc : s'.getLast? = some c) (hsum : ∀ b i, ∑ j ∈ classRow c i, T b j = 1)
    (hagg : cfg.agg = .sum ∨ cfg.agg = .average) (hs : ∀ b, N.sem.smooth (N.w st) (X b)) :
    ∃ (g : Tensor ℝ) (G : Fin B → Fin n → ℝ), Returns (bernoulliGradient cfg N.mod x (some target) .input) st (.tensor g) ∧ IsVec1 g n (fun i => aggFactor cfg.agg B * ∑ b, G b i) ∧
      ∀ b, HasGrad (fun z => scalarOf (bernoulliForward cfg N.mod (ofSample s z) (some (ofSample s' (T b)))) st) (G b) (X b) :=
  grad_input (LL := classLL c) (U := fun y t i => t i - softmax c y i) hagg (fun hx ht => bernoulliForward_scalar h hh Nat.one_pos hx ht hc hagg)
    (bernoulliGradient_run h hh hB hx ht hc hagg) (fun b => classLL_grad_one _ _ (hsum b)) hs

/-- C24: for targets whose class sums are 1, `gradient(wrt="weight")` is the gradient in the weights. -/
theorem C24_gradient_weight {c : Nat} (h : N.Ok st) (hh : st.hooks N.mod.id = []) (hn : N.paramIds.Nodup) (hp : 0 < p) (hB : 0 < B)
    (hx : IsBatch x B s n X) (ht : IsBatch target B s' k T) (hc : s'.getLast? = some c) (hsum : ∀ b i, ∑ j ∈ classRow c i, T b j = 1)
    (hagg : cfg.agg = .sum ∨ cfg.agg = .average) (hs : ∀ b, N.sem.smooth (N.w st) (X b)) :
    ∃ wt w g G, Returns N.mod.getWeight st wt ∧ IsVec1 wt p w ∧ Returns (bernoulliGradient cfg N.mod x (some target) .weight) st (.tensor g) ∧
      IsVec1 g p G ∧ (∀ w' : Fin p → ℝ, ∃ a, ReturnsScalar (do N.mod.setWeight (ofVec w'); bernoulliForward cfg N.mod x (some target)) st a) ∧
      HasGrad (fun w' => scalarOf (do N.mod.setWeight (ofVec w'); bernoulliForward cfg N.mod x (some target)) st) G w :=
  grad_weight (LL := classLL c) (U := fun y t i => t i - softmax c y i) h hh hn hp (fun h hh => bernoulliForward_scalar h hh hB hx ht hc hagg)
    (bernoulliGradient_run h hh hB hx ht hc hagg) (fun b => classLL_grad_one _ _ (hsum b)) hs

/-- C24, the boundary: for one sample, if the Jacobian that the model returns for it has independent
rows, and the vector that `gradient(wrt="input")` returns is the gradient of `forward`, then all class
sums of the target are 1. -/
theorem C24_gradient_only {c : Nat} (h : N.Ok st) (hh : st.hooks N.mod.id = []) {z : Fin n → ℝ} {τ : Fin k → ℝ}
    (hc : s'.getLast? = some c) (hagg : cfg.agg = .sum ∨ cfg.agg = .average) (hs : N.sem.smooth (N.w st) z)
    {jt : Tensor ℝ} {J : Fin 1 → Matrix (Fin k) (Fin n) ℝ} (hj : Returns (N.mod.jacobian (ofSample s z) none .input) st (some jt))
    (hJ : IsMat jt 1 k n J) (hinj : Function.Injective fun u : Fin k → ℝ => u ᵥ* J 0)
    {g : Tensor ℝ} {G : Fin n → ℝ}
    (hg : Returns (bernoulliGradient cfg N.mod (ofSample s z) (some (ofSample s' τ)) .input) st (.tensor g)) (hG : IsVec1 g n G)
    (hgrad : HasGrad (fun z => scalarOf (bernoulliForward cfg N.mod (ofSample s z) (some (ofSample s' τ))) st) G z) :
    ∀ i, ∑ j ∈ classRow c i, τ j = 1 := by
  obtain ⟨jt', hj', hJ'⟩ := h.jacI Nat.one_pos (ofSample_isBatch (s := s) z)
  have ejt : jt = jt' := by rw [Returns] at hj hj'; rw [hj] at hj'; injection hj' with e; injection e
  have eJ : J 0 = N.J st z := by
    ext i j
    rw [← hJ.2 0 i j, ejt, hJ'.2]
  obtain ⟨g', hg', hG'⟩ := (bernoulliGradient_run h hh Nat.one_pos (ofSample_isBatch (s := s) z) (ofSample_isBatch (s := s') τ) hc hagg).1
  have eg : g = g' := by rw [Returns] at hg hg'; rw [hg] at hg'; injection hg' with e; injection e
  have eG : G = (fun i => τ i - softmax c (N.out st z) i) ᵥ* N.J st z := by
    funext i
    rw [← hG.2 i, eg, hG'.2 i, aggFactor_one hagg]
    simp
  have e : (fun z => scalarOf (bernoulliForward cfg N.mod (ofSample s z) (some (ofSample s' τ))) st) = fun z => classLL c (N.out st z) τ := by
    funext z
    rw [(bernoulliForward_scalar h hh Nat.one_pos (ofSample_isBatch z) (ofSample_isBatch τ) hc hagg).scalarOf_eq, aggFactor_one hagg]
    simp
  rw [e] at hgrad
  have h2 := HasGrad.comp (f := N.out st) (classLL_grad (c := c) (N.out st z) τ) (N.diff _ _ hs).input
  have h3 := hgrad.unique h2
  rw [eG] at h3
  rw [eJ] at hinj
  have h4 := hinj h3
  intro i
  have h5 := congrFun h4 i
  have h6 : softmax c (N.out st z) i * (∑ j ∈ classRow c i, τ j - 1) = 0 := by linarith
  rcases mul_eq_zero.1 h6 with h7 | h7
  · exact absurd h7 (softmax_pos _ i).ne'
  · linarith

/-! ### C25: Gauss-Newton matrices -/

/-- C25: `LogGaussian.ggn` with `metric_shape="diag"`, exact propagation. -/
theorem C25_gaussian (h : N.Ok st) (hh : st.hooks N.mod.id = []) (hB : 0 < B) (hx : IsBatch x B s n X)
    (hagg : cfg.agg = .sum ∨ cfg.agg = .average) (hsh : cfg.shape = .diag) (hbp : cfg.backprop = .exact) :
    GgnDiag (gaussianGgn cfg N.mod x .input) (N.mod.jacobian x none .input) st B k n cfg.agg
      (fun b H => ∀ t, HasHess (fun y => gaussLL y t) H (forwardMap N.mod st s (X b))) ∧
    (0 < p → GgnDiag (gaussianGgn cfg N.mod x .weight) (N.mod.jacobian x none .weight) st B k p cfg.agg
      (fun b H => ∀ t, HasHess (fun y => gaussLL y t) H (forwardMap N.mod st s (X b)))) :=
  ggnDiag_of h hB hx (gaussianGgn_run h hh hB hx hagg hbp) hsh (fun _ _ => gaussLL_hess _ _) fun _ => diagonal_nonpos fun _ => by norm_num

/-- C25: `LogBinaryBernoulli.ggn` with `metric_shape="diag"`, exact propagation. -/
theorem C25_binary (h : N.Ok st) (hh : st.hooks N.mod.id = []) (hB : 0 < B) (hx : IsBatch x B s n X)
    (hagg : cfg.agg = .sum ∨ cfg.agg = .average) (hsh : cfg.shape = .diag) (hbp : cfg.backprop = .exact) :
    GgnDiag (binaryGgn cfg N.mod x .input) (N.mod.jacobian x none .input) st B k n cfg.agg
      (fun b H => ∀ t, HasHess (fun y => binLL y t) H (forwardMap N.mod st s (X b))) ∧
    (0 < p → GgnDiag (binaryGgn cfg N.mod x .weight) (N.mod.jacobian x none .weight) st B k p cfg.agg
      (fun b H => ∀ t, HasHess (fun y => binLL y t) H (forwardMap N.mod st s (X b)))) :=
  ggnDiag_of h hB hx (binaryGgn_run h hh hB hx hagg hbp) hsh (fun b t => by rw [← out_eq h]; exact binLL_hess _ _) fun _ => diagonal_nonpos fun _ => sigma_sq _

/-- C25, C24: `LogBernoulli.ggn` with `metric_shape="diag"`, exact propagation, for outputs that are one
class vector; `H` is the Hessian for every target with class sum 1. -/
theorem C25_bernoulli {c : Nat} {N : Net s n [c] c p} (h : N.Ok st) (hh : st.hooks N.mod.id = []) (hB : 0 < B) (hx : IsBatch x B s n X)
    (hagg : cfg.agg = .sum ∨ cfg.agg = .average) (hsh : cfg.shape = .diag) (hbp : cfg.backprop = .exact) :
    GgnDiag (bernoulliGgn cfg N.mod x .input) (N.mod.jacobian x none .input) st B c n cfg.agg
      (fun b H => ∀ t, ∑ j, t j = 1 → HasHess (fun y => classLL c y t) H (forwardMap N.mod st s (X b))) ∧
    (0 < p → GgnDiag (bernoulliGgn cfg N.mod x .weight) (N.mod.jacobian x none .weight) st B c p cfg.agg
      (fun b H => ∀ t, ∑ j, t j = 1 → HasHess (fun y => classLL c y t) H (forwardMap N.mod st s (X b)))) :=
  ggnDiag_of h hB hx (bernoulliGgn_run h hh hB hx hagg hbp) hsh
    (fun b t ht => by rw [← out_eq h]; exact classLL_hess _ _ fun i => by rw [classRow_univ]; exact ht) fun b => classH_nonpos _

/-- C25: with `metric_shape="full"`: in the inputs, and in the weights of a model that is a single layer, the
full matrix; in the weights of a Sequential or SkipConnection, TypeError (`torch.sum` of a list). -/
theorem C25_gaussian_full (h : N.Ok st) (hh : st.hooks N.mod.id = []) (hB : 0 < B) (hx : IsBatch x B s n X)
    (hagg : cfg.agg = .sum ∨ cfg.agg = .average) (hsh : cfg.shape = .full) (hbp : cfg.backprop = .exact) :
    GgnFull (gaussianGgn cfg N.mod x .input) (N.mod.jacobian x none .input) st B k n cfg.agg
      (fun b H => ∀ t, HasHess (fun y => gaussLL y t) H (forwardMap N.mod st s (X b))) ∧
    (0 < p → ¬ N.Container → GgnFull (gaussianGgn cfg N.mod x .weight) (N.mod.jacobian x none .weight) st B k p cfg.agg
      (fun b H => ∀ t, HasHess (fun y => gaussLL y t) H (forwardMap N.mod st s (X b)))) ∧
    (N.Container → (gaussianGgn cfg N.mod x .weight st).1 = .error .type) :=
  ggnFull_of h hB hx (gaussianGgn_run h hh hB hx hagg hbp) hsh (fun _ _ => gaussLL_hess _ _) fun _ => diagonal_nonpos fun _ => by norm_num

/-- C25: as `C25_gaussian_full`. -/
theorem C25_binary_full (h : N.Ok st) (hh : st.hooks N.mod.id = []) (hB : 0 < B) (hx : IsBatch x B s n X)
    (hagg : cfg.agg = .sum ∨ cfg.agg = .average) (hsh : cfg.shape = .full) (hbp : cfg.backprop = .exact) :
    GgnFull (binaryGgn cfg N.mod x .input) (N.mod.jacobian x none .input) st B k n cfg.agg
      (fun b H => ∀ t, HasHess (fun y => binLL y t) H (forwardMap N.mod st s (X b))) ∧
    (0 < p → ¬ N.Container → GgnFull (binaryGgn cfg N.mod x .weight) (N.mod.jacobian x none .weight) st B k p cfg.agg
      (fun b H => ∀ t, HasHess (fun y => binLL y t) H (forwardMap N.mod st s (X b)))) ∧
    (N.Container → (binaryGgn cfg N.mod x .weight st).1 = .error .type) :=
  ggnFull_of h hB hx (binaryGgn_run h hh hB hx hagg hbp) hsh (fun b t => by rw [← out_eq h]; exact binLL_hess _ _) fun _ => diagonal_nonpos fun _ => sigma_sq _

/-- C25: as `C25_gaussian_full`. -/
theorem C25_bernoulli_full {c : Nat} {N : Net s n [c] c p} (h : N.Ok st) (hh : st.hooks N.mod.id = []) (hB : 0 < B) (hx : IsBatch x B s n X)
    (hagg : cfg.agg = .sum ∨ cfg.agg = .average) (hsh : cfg.shape = .full) (hbp : cfg.backprop = .exact) :
    GgnFull (bernoulliGgn cfg N.mod x .input) (N.mod.jacobian x none .input) st B c n cfg.agg
      (fun b H => ∀ t, ∑ j, t j = 1 → HasHess (fun y => classLL c y t) H (forwardMap N.mod st s (X b))) ∧
    (0 < p → ¬ N.Container → GgnFull (bernoulliGgn cfg N.mod x .weight) (N.mod.jacobian x none .weight) st B c p cfg.agg
      (fun b H => ∀ t, ∑ j, t j = 1 → HasHess (fun y => classLL c y t) H (forwardMap N.mod st s (X b)))) ∧
    (N.Container → (bernoulliGgn cfg N.mod x .weight st).1 = .error .type) :=
  ggnFull_of h hB hx (bernoulliGgn_run h hh hB hx hagg hbp) hsh
    (fun b t ht => by rw [← out_eq h]; exact classLL_hess _ _ fun i => by rw [classRow_univ]; exact ht) fun b => classH_nonpos _

/-- C25: `LogBernoulli.ggn` raises when the outputs hold more than one class vector (`l` is then a float
different from 1), whatever the configuration. -/
theorem C25_bernoulli_rows {c : Nat} (h : N.Ok st) (hh : st.hooks N.mod.id = []) (hB : 0 < B) (hx : IsBatch x B s n X)
    (hc : s'.getLast? = some c) (hne : k ≠ c) (wrt : Wrt) : ∃ e, (bernoulliGgn cfg N.mod x wrt st).1 = .error e := by
  obtain ⟨val, st1, h1, cl⟩ := h.call_run hh hB hx
  have hl : val.shape.getLast? = some c := by rw [cl.out.1]; cases s' <;> simp_all
  have hn : val.numel0 = .ok k := by
    simp only [Tensor.numel0, cl.out.1]
    cases B with
    | zero => omega
    | succ B => simp [h.g.hk]
  obtain ⟨e, he⟩ := bernoulliHessian_bad (b := B) hl hn hne
  refine ⟨e, ?_⟩
  rw [bernoulliGgn, Res.lift_bind_ok hx.dim0, Prog.bind_ok h1, he]
  rfl

/-! ### C26: aggregation -/

/-- C26: the default `aggregate_batch="return all"` cannot be constructed; whatever can be constructed has
`aggregate_batch` None, "sum" or "average". -/
theorem C26_init : (∀ shape backprop, init .returnAll shape backprop = .error .assertion) ∧
    (∀ agg shape backprop cfg, init agg shape backprop = .ok cfg →
      (cfg.agg = .none ∨ cfg.agg = .sum ∨ cfg.agg = .average) ∧ (cfg.shape = .full ∨ cfg.shape = .diag) ∧
        (cfg.backprop = .exact ∨ cfg.backprop = .approx)) := by
  constructor
  · intro shape backprop; rfl
  · intro agg shape backprop cfg hc
    cases agg <;> cases shape <;> cases backprop <;> first | (injection hc with hc; subst hc; simp) | cases hc

/-- whatever the call returns, in whatever state, is `v` -/
def OnlyReturns {β : Type} (call : Prog ℝ β) (v : β) : Prop := ∀ st r, Returns call st r → r = v

theorem OnlyReturns.bind {β γ : Type} {p : Prog ℝ β} {f : β → Prog ℝ γ} {v : γ} (h : ∀ b, OnlyReturns (f b) v) : OnlyReturns (p >>= f) v := by
  intro st r hr
  rw [Returns] at hr
  rcases hp : p st with ⟨e | b, st1⟩
  · rw [Prog.bind_error hp] at hr; cases hr
  · rw [Prog.bind_ok hp] at hr; exact h b st1 r hr

/-- C26: with `aggregate_batch=None` every method of every likelihood, for any model, state and arguments,
returns None if it returns. -/
theorem C26_none (cfg : Cfg) (hc : cfg.agg = .none) (model : Mod ℝ) (st : Store ℝ) (x : Tensor ℝ) (target : Option (Tensor ℝ)) :
    (∀ r, Returns (gaussianForward cfg model x target) st r → r = none) ∧
    (∀ wrt r, Returns (gaussianGradient cfg model x target wrt) st r → r = .none) ∧
    (∀ wrt r, Returns (gaussianGgn cfg model x wrt) st r → r = .none) ∧
    (∀ r, Returns (binaryForward cfg model x target) st r → r = none) ∧
    (∀ wrt r, Returns (binaryGradient cfg model x target wrt) st r → r = .none) ∧
    (∀ wrt r, Returns (binaryGgn cfg model x wrt) st r → r = .none) ∧
    (∀ r, Returns (bernoulliForward cfg model x target) st r → r = none) ∧
    (∀ wrt r, Returns (bernoulliGradient cfg model x target wrt) st r → r = .none) ∧
    (∀ wrt r, Returns (bernoulliGgn cfg model x wrt) st r → r = .none) := by
  have hf : ∀ t : Tensor ℝ, OnlyReturns (liftM (aggForward cfg.agg t)) none := fun t s r h => by
    rw [hc] at h; exact (Except.ok.inj h).symm
  have hv : ∀ v : PyVal ℝ, OnlyReturns (liftM (aggValue cfg.agg v)) .none := fun v s r h => by
    rw [hc] at h; exact (Except.ok.inj h).symm
  refine ⟨fun r hr => ?_, fun wrt r hr => ?_, fun wrt r hr => ?_, fun r hr => ?_, fun wrt r hr => ?_, fun wrt r hr => ?_, fun r hr => ?_,
    fun wrt r hr => ?_, fun wrt r hr => ?_⟩
  all_goals
    revert hr
    refine (?_ : OnlyReturns _ _) st r
    repeat refine OnlyReturns.bind fun _ => ?_
    first | exact hf _ | exact hv _

/-! ### the hypotheses can be met -/

/-- a likelihood that can be constructed -/
def exCfg : Cfg := ⟨.average, .diag, .exact⟩
example : init .average .diag .exact = .ok exCfg := rfl

theorem exNet_hooks : exStore.hooks exNet.mod.id = [] := by simp [exNet, exStore, Net.mod, Sequential.mod]

/-- two targets for the example network -/
noncomputable def exTarget : Tensor ℝ := ⟨[2, 1], fun i => i⟩
theorem exTarget_isBatch : IsBatch exTarget 2 [1] 1 (fun b _ => (b : ℝ)) := ⟨rfl, fun b i => by fin_cases i; simp [exTarget]⟩

example : ∃ wt w g G, Returns exNet.mod.getWeight exStore wt ∧ IsVec1 wt 21 w ∧
    Returns (gaussianGradient exCfg exNet.mod exInput (some exTarget) .weight) exStore (.tensor g) ∧ IsVec1 g 21 G ∧
    (∀ w' : Fin 21 → ℝ, ∃ a, ReturnsScalar (do exNet.mod.setWeight (ofVec w'); gaussianForward exCfg exNet.mod exInput (some exTarget)) exStore a) ∧
    HasGrad (fun w' => scalarOf (do exNet.mod.setWeight (ofVec w'); gaussianForward exCfg exNet.mod exInput (some exTarget)) exStore) G w :=
  C22_gradient_weight exNet_ok exNet_hooks (by simp only [exNet, Net.paramIds, Chain.paramIds]; decide) (by norm_num) (by norm_num)
    exInput_isBatch exTarget_isBatch (.inr rfl) exNet_smooth

example : ∃ (g : Tensor ℝ) (G : Fin 2 → Fin 2 → ℝ), Returns (binaryGradient exCfg exNet.mod exInput (some exTarget) .input) exStore (.tensor g) ∧
    IsVec1 g 2 (fun i => aggFactor .average 2 * ∑ b, G b i) ∧
    ∀ b : Fin 2, HasGrad (fun z => scalarOf (binaryForward exCfg exNet.mod (ofSample [2] z) (some (ofSample [1] fun _ : Fin 1 => (b : ℝ)))) exStore) (G b)
      (fun i => 2 * b + i) :=
  C23_gradient_input exNet_ok exNet_hooks (by norm_num) exInput_isBatch exTarget_isBatch (.inr rfl) exNet_smooth

example : GgnDiag (gaussianGgn exCfg exNet.mod exInput .weight) (exNet.mod.jacobian exInput none .weight) exStore 2 1 21 .average
    (fun b H => ∀ t, HasHess (fun y => gaussLL y t) H (forwardMap exNet.mod exStore [2] (fun i : Fin 2 => (2 * b + i : ℝ)))) :=
  (C25_gaussian (N := exNet) (cfg := exCfg) exNet_ok exNet_hooks (by norm_num) exInput_isBatch (.inr rfl) rfl rfl).2 (by norm_num)

example : (gaussianGgn ⟨.sum, .full, .exact⟩ exNet.mod exInput .weight exStore).1 = .error .type :=
  (C25_gaussian_full (N := exNet) exNet_ok exNet_hooks (by norm_num) exInput_isBatch (.inl rfl) rfl rfl).2.2 (by simp [exNet, Net.Container])

/-- `Sequential(Linear(2, 3))`: three classes -/
noncomputable def clsNet : Net [2] 2 [3] 3 (0 + (3 * 2 + 3)) :=
  .seq 0 (.snoc (.nil [2] 2 rfl (by norm_num)) (.linear 1 0 (some 1) 2 3 (by norm_num) (by norm_num)))

theorem clsNet_ok : clsNet.Ok exStore := by
  refine ⟨by simp only [clsNet, Net.ids, Chain.ids]; decide, ?_⟩
  simp [clsNet, Net.Wired, Chain.Wired, exStore, Net.mod, Linear.mod, PureLayer.toMod]

theorem clsNet_hooks : exStore.hooks clsNet.mod.id = [] := by simp [clsNet, exStore, Net.mod, Sequential.mod]

/-- soft targets: probabilities 1/2, 1/3, 1/6 for both samples -/
noncomputable def clsTarget : Tensor ℝ := ⟨[2, 3], fun i => if i % 3 = 0 then 1 / 2 else if i % 3 = 1 then 1 / 3 else 1 / 6⟩
theorem clsTarget_isBatch : IsBatch clsTarget 2 [3] 3 (fun _ i => if i.val = 0 then 1 / 2 else if i.val = 1 then 1 / 3 else 1 / 6) :=
  ⟨rfl, fun b i => by
    simp only [clsTarget]
    rw [show ((b : Nat) * 3 + i) % 3 = i by omega]⟩

example : ∃ wt w g G, Returns clsNet.mod.getWeight exStore wt ∧ IsVec1 wt 9 w ∧
    Returns (bernoulliGradient exCfg clsNet.mod exInput (some clsTarget) .weight) exStore (.tensor g) ∧ IsVec1 g 9 G ∧
    (∀ w' : Fin 9 → ℝ, ∃ a, ReturnsScalar (do clsNet.mod.setWeight (ofVec w'); bernoulliForward exCfg clsNet.mod exInput (some clsTarget)) exStore a) ∧
    HasGrad (fun w' => scalarOf (do clsNet.mod.setWeight (ofVec w'); bernoulliForward exCfg clsNet.mod exInput (some clsTarget)) exStore) G w :=
  C24_gradient_weight (c := 3) clsNet_ok clsNet_hooks (by simp only [clsNet, Net.paramIds, Chain.paramIds]; decide) (by norm_num) (by norm_num)
    exInput_isBatch clsTarget_isBatch rfl
    (fun b i => by rw [classRow_univ]; simp [Fin.sum_univ_succ]; norm_num) (.inr rfl)
    (fun b => by simp [clsNet, Net.sem, Chain.sem, Sem.comp, Sem.id, linearSem, Sem.leaf])

example : GgnDiag (bernoulliGgn exCfg clsNet.mod exInput .weight) (clsNet.mod.jacobian exInput none .weight) exStore 2 3 9 .average
    (fun b H => ∀ t, ∑ j, t j = 1 → HasHess (fun y => classLL 3 y t) H (forwardMap clsNet.mod exStore [2] (fun i : Fin 2 => (2 * b + i : ℝ)))) :=
  (C25_bernoulli (N := clsNet) (cfg := exCfg) clsNet_ok clsNet_hooks (by norm_num) exInput_isBatch (.inr rfl) rfl rfl).2 (by norm_num)

/-- `Flatten()` on two numbers -/
noncomputable def flatNet : Net [2] 2 [2] 2 0 := .flatten 9 [2] 2 rfl (by norm_num)
theorem flatNet_ok : flatNet.Ok exStore := ⟨by simp [flatNet, Net.ids], by simp [flatNet, Net.Wired]⟩
theorem flatNet_hooks : exStore.hooks flatNet.mod.id = [] := by simp only [flatNet, Net.mod]; rfl

/-- C24: an unnormalised target (two classes, both 1) for which `gradient` is not the gradient of `forward`. -/
theorem C24_gradient_wrong (z : Fin 2 → ℝ) : ∃ g G,
    Returns (bernoulliGradient exCfg flatNet.mod (ofSample [2] z) (some (ofSample [2] fun _ : Fin 2 => (1 : ℝ))) .input) exStore (.tensor g) ∧ IsVec1 g 2 G ∧
      ¬ HasGrad (fun z => scalarOf (bernoulliForward exCfg flatNet.mod (ofSample [2] z) (some (ofSample [2] fun _ : Fin 2 => (1 : ℝ)))) exStore) G z := by
  obtain ⟨g, hg, hG⟩ := (bernoulliGradient_run (c := 2) (cfg := exCfg) flatNet_ok flatNet_hooks Nat.one_pos (ofSample_isBatch (s := [2]) z)
    (ofSample_isBatch (s := [2]) fun _ : Fin 2 => (1 : ℝ)) rfl (.inr rfl)).1
  obtain ⟨jt, hj, hJ⟩ := flatNet_ok.jacI Nat.one_pos (ofSample_isBatch (s := [2]) z)
  refine ⟨g, _, hg, hG, fun hgrad => ?_⟩
  have eJ : flatNet.J exStore z = 1 := by simp [flatNet, Net.J, Net.sem, reshapeSem, Sem.leaf0, Sem.leaf]
  have := C24_gradient_only (c := 2) (cfg := exCfg) flatNet_ok flatNet_hooks rfl (.inr rfl) (by simp [flatNet, Net.sem, reshapeSem, Sem.leaf0, Sem.leaf]) hj hJ
    (fun u v h => by simpa only [eJ, vecMul_one] using h) hg hG hgrad 0
  rw [classRow_univ] at this
  norm_num at this

/-- C26: sum and average of `forward` on the two example samples -/
example : ∃ a, ReturnsScalar (gaussianForward ⟨.sum, .diag, .exact⟩ exNet.mod exInput (some exTarget)) exStore a ∧
    ReturnsScalar (gaussianForward ⟨.average, .diag, .exact⟩ exNet.mod exInput (some exTarget)) exStore (a / 2) :=
  ⟨_, C22_forward exNet_ok exNet_hooks (by norm_num) exInput_isBatch exTarget_isBatch (.inl rfl), by
    have := C22_forward (cfg := ⟨.average, .diag, .exact⟩) exNet_ok exNet_hooks (by norm_num) exInput_isBatch exTarget_isBatch (.inr rfl)
    refine (congrArg _ ?_).mp this
    simp [aggFactor]
    ring⟩

end Props
end NNJ
