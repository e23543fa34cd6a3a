import Verif.Torch.Tensor

/-! # Equal samples of two batches -/

namespace NNJ

/-- the `n` entries of sample `b` of `t` are, in order, those of sample `b'` of `t'` -/
def SampleEq {α : Type} (b b' n : Nat) (t t' : Tensor α) : Prop := ∀ c < n, t.data (b * n + c) = t'.data (b' * n + c)

end NNJ
