import Verif.Spec.LogLik

/-!
# Vocabulary for the notebook
-/

namespace NNJ

/-- `½ Σ_b |output of sample b with weights w - T b|²`, the loss whose gradient the notebook follows -/
noncomputable def l2Loss {B k p : Nat} (m : Mod ℝ) (st : Store ℝ) (x : Tensor ℝ) (T : Fin B → Fin k → ℝ) (w : Fin p → ℝ) : ℝ :=
  ∑ b : Fin B, (∑ i, (weightMap m st x b w i - T b i) ^ 2) / 2

end NNJ
