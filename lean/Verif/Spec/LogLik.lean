import Verif.Spec.Weights
import Verif.Model.LogLikelihoods

/-!
# Vocabulary for the likelihoods

Log-densities of one sample as functions of the (flattened) model output `y` and target `t`; gradients
and Hessians; the value of a call that returns a scalar.
-/

namespace NNJ
open LogLik

/-- the model is a Sequential or a SkipConnection -/
def Net.Container {s s' : List Nat} {n k p : Nat} : Net s n s' k p → Prop
  | .seq _ _ => True
  | .skip _ _ _ => True
  | _ => False

/-- log density of a normal distribution with mean `y` and unit variance, without its constant -/
noncomputable def gaussLL {k : Nat} (y t : Fin k → ℝ) : ℝ := -(1 / 2) * ∑ i, (y i - t i) ^ 2

/-- probability with logit `a` -/
noncomputable def sigma (a : ℝ) : ℝ := Real.exp a / (1 + Real.exp a)

/-- independent binary variables with logits `y` -/
noncomputable def binLL {k : Nat} (y t : Fin k → ℝ) : ℝ :=
  ∑ i, (t i * Real.log (sigma (y i)) + (1 - t i) * Real.log (1 - sigma (y i)))

/-- the entries in the same row as `i`, in rows of `c` consecutive entries (the last dimension of the
output are the classes) -/
def classRow (c : Nat) {k : Nat} (i : Fin k) : Finset (Fin k) := Finset.univ.filter fun j => j.val / c = i.val / c

/-- class probabilities with logits `y` -/
noncomputable def softmax (c : Nat) {k : Nat} (y : Fin k → ℝ) (i : Fin k) : ℝ :=
  Real.exp (y i) / ∑ j ∈ classRow c i, Real.exp (y j)

/-- categorical variables with `c` classes and logits `y` -/
noncomputable def classLL (c : Nat) {k : Nat} (y t : Fin k → ℝ) : ℝ := ∑ i, t i * Real.log (softmax c y i)

/-- the linear form `v ↦ Σ g_i v_i` -/
noncomputable def linForm {n : Nat} (g : Fin n → ℝ) : (Fin n → ℝ) →L[ℝ] ℝ := ∑ i, g i • ContinuousLinearMap.proj i

/-- `g` is the gradient of `f` at `x` -/
def HasGrad {n : Nat} (f : (Fin n → ℝ) → ℝ) (g x : Fin n → ℝ) : Prop := HasFDerivAt f (linForm g) x

/-- `H` is the Hessian of `f` at `x`: `f` has a gradient everywhere, whose derivative at `x` is `H` -/
def HasHess {n : Nat} (f : (Fin n → ℝ) → ℝ) (H : Matrix (Fin n) (Fin n) ℝ) (x : Fin n → ℝ) : Prop :=
  ∃ g, (∀ z, HasGrad f (g z) z) ∧ HasFDerivAt g (linMap H) x

/-- factor of the batch sum: 1 for "sum", 1 / B for "average" -/
noncomputable def aggFactor (agg : AggArg) (B : Nat) : ℝ := if agg = .average then 1 / B else 1

/-- the call returns a tensor without dimensions, holding the number `a` -/
def ReturnsScalar (call : Prog ℝ (Option (Tensor ℝ))) (st : Store ℝ) (a : ℝ) : Prop :=
  ∃ v, Returns call st (some v) ∧ v.shape = [] ∧ v.data 0 = a

/-- the number that a call returns (0 if it raises or returns None; the theorems that use it also say
that it does not) -/
noncomputable def scalarOf (call : Prog ℝ (Option (Tensor ℝ))) (st : Store ℝ) : ℝ :=
  match (call st).1 with
  | .ok (some t) => t.data 0
  | _ => 0

/-- `t` has shape `[m, n]` and `t[i, j] = M i j`. -/
def IsMat1 (t : Tensor ℝ) (m n : Nat) (M : Matrix (Fin m) (Fin n) ℝ) : Prop :=
  t.shape = [m, n] ∧ ∀ i j, t.get [(i : Fin m), (j : Fin n)] = M i j

/-- `ggn` returns the diagonal, aggregated over the batch, of `Jᵀ H J`, where `J` is what `jac` returns and
`H b` is a matrix with the property `hess b`; its entries are not positive. -/
def GgnDiag (ggn : Prog ℝ (PyVal ℝ)) (jac : Prog ℝ (Option (Tensor ℝ))) (st : Store ℝ) (B k m : Nat) (agg : AggArg)
    (hess : Fin B → Matrix (Fin k) (Fin k) ℝ → Prop) : Prop :=
  ∃ (jt g : Tensor ℝ) (J : Fin B → Matrix (Fin k) (Fin m) ℝ) (H : Fin B → Matrix (Fin k) (Fin k) ℝ) (G : Fin m → ℝ),
    Returns jac st (some jt) ∧ IsMat jt B k m J ∧ (∀ b, hess b (H b)) ∧ Returns ggn st (.tensor g) ∧ IsVec1 g m G ∧
    (∀ i, G i = aggFactor agg B * ∑ b, ((J b).transpose * H b * J b) i i) ∧ ∀ i, G i ≤ 0

/-- the same for the full matrix, which is negative semidefinite -/
def GgnFull (ggn : Prog ℝ (PyVal ℝ)) (jac : Prog ℝ (Option (Tensor ℝ))) (st : Store ℝ) (B k m : Nat) (agg : AggArg)
    (hess : Fin B → Matrix (Fin k) (Fin k) ℝ → Prop) : Prop :=
  ∃ (jt g : Tensor ℝ) (J : Fin B → Matrix (Fin k) (Fin m) ℝ) (H : Fin B → Matrix (Fin k) (Fin k) ℝ) (G : Matrix (Fin m) (Fin m) ℝ),
    Returns jac st (some jt) ∧ IsMat jt B k m J ∧ (∀ b, hess b (H b)) ∧ Returns ggn st (.tensor g) ∧ IsMat1 g m m G ∧
    (∀ i j, G i j = aggFactor agg B * ∑ b, ((J b).transpose * H b * J b) i j) ∧ ∀ v, dotProduct v (G.mulVec v) ≤ 0

/-- `ggn` returns, aggregated over the batch, the row vectors `d b` times `Q b`, where the diagonal matrix with entries `d b`
has the property `hess b`; the entries are not positive. -/
def GgnApprox (ggn : Prog ℝ (PyVal ℝ)) (st : Store ℝ) (B k m : Nat) (agg : AggArg) (Q : Fin B → Matrix (Fin k) (Fin m) ℝ)
    (hess : Fin B → Matrix (Fin k) (Fin k) ℝ → Prop) : Prop :=
  ∃ (g : Tensor ℝ) (d : Fin B → Fin k → ℝ) (G : Fin m → ℝ), Returns ggn st (.tensor g) ∧ IsVec1 g m G ∧
    (∀ b, hess b (Matrix.diagonal (d b))) ∧ (∀ i, G i = aggFactor agg B * ∑ b, Matrix.vecMul (d b) (Q b) i) ∧ ∀ i, G i ≤ 0

/-- The calls `one b` on the samples return numbers, `sum` their sum, and `avg` this sum divided by the number of samples. -/
def SumsScalar {B : Nat} (one : Fin B → Prog ℝ (Option (Tensor ℝ))) (sum avg : Prog ℝ (Option (Tensor ℝ))) (st : Store ℝ) : Prop :=
  ∃ a : Fin B → ℝ, (∀ b, ReturnsScalar (one b) st (a b)) ∧ ReturnsScalar sum st (∑ b, a b) ∧ ReturnsScalar avg st ((∑ b, a b) / B)

/-- The calls `one b` on the samples return tensors of one shape, `sum` their entrywise sum, and `avg` this sum divided by
the number of samples. -/
def SumsTensor {B : Nat} (one : Fin B → Prog ℝ (PyVal ℝ)) (sum avg : Prog ℝ (PyVal ℝ)) (st : Store ℝ) : Prop :=
  ∃ (sh : List Nat) (r : Fin B → Tensor ℝ) (S A : Tensor ℝ),
    (∀ b, Returns (one b) st (.tensor (r b)) ∧ (r b).shape = sh) ∧ Returns sum st (.tensor S) ∧ S.shape = sh ∧
    Returns avg st (.tensor A) ∧ A.shape = sh ∧
    ∀ i < size sh, S.data i = ∑ b, (r b).data i ∧ A.data i = (∑ b, (r b).data i) / B

end NNJ
