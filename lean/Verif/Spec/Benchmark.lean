import Verif.Spec.LogLik

/-!
# Vocabulary for the benchmark: the squared loss of `torch.nn.MSELoss()`
-/

namespace NNJ

/-- what one sample with output `y` and target `t` contributes to `torch.nn.MSELoss()`, which is the average of this over the batch -/
noncomputable def mseLoss {k : Nat} (y t : Fin k → ℝ) : ℝ := (∑ i, (y i - t i) ^ 2) / k

end NNJ
