import Verif.Spec.Net
import Verif.Spec.Api

/-! Vocabulary for Linear layers applied to samples with several axes (C66). -/

namespace NNJ
open Tensor Matrix

/-- The parameters of `nnj.Linear(i, o)` have the shapes the constructor gives them. -/
structure LinParams (wId : Nat) (bId : Option Nat) (i o : Nat) (st : Store ℝ) : Prop where
  weight : (st.param wId).shape = [o, i]
  bias : ∀ b ∈ bId, (st.param b).shape = [o]

/-- the weight matrix of a Linear layer -/
noncomputable def linW (wId i o : Nat) (st : Store ℝ) : Matrix (Fin o) (Fin i) ℝ := fun k j => (st.param wId).data (k * i + j)

/-- the block diagonal matrix with `T` copies of `M` -/
noncomputable def copies (T : Nat) {i o : Nat} (M : Matrix (Fin o) (Fin i) ℝ) : Matrix (Fin (T * o)) (Fin (T * i)) ℝ := fun a b =>
  if (finProdFinEquiv.symm a).1 = (finProdFinEquiv.symm b).1 then M (finProdFinEquiv.symm a).2 (finProdFinEquiv.symm b).2 else 0

/-- The call raises (whatever the exception). -/
def Rejects {β : Type} (call : Prog ℝ β) (st : Store ℝ) : Prop := ∃ e, (call st).1 = .error e

end NNJ
