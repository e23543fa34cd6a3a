import Verif.Spec.Net
import Mathlib.Analysis.Calculus.FDeriv.Basic
import Mathlib.Topology.Algebra.Module.FiniteDimension

/-!
# Vocabulary of the property statements: calls on a network object
-/

namespace NNJ

/-- The network object is properly constructed in the state, and no module object occurs twice
inside it. -/
structure Net.Ok {s s' : List Nat} {n k p : Nat} (N : Net s n s' k p) (st : Store ℝ) : Prop where
  nodup : N.ids.Nodup
  wired : N.Wired st

/-- The call, made in state `st`, returns `b` (it does not raise). -/
def Returns {β : Type} (call : Prog ℝ β) (st : Store ℝ) (b : β) : Prop := (call st).1 = .ok b

/-- Equality of tensors: same shape, same entries. -/
def TEq (t t' : Tensor ℝ) : Prop := t.shape = t'.shape ∧ ∀ i < size t.shape, t.data i = t'.data i

/-- The sample map computed by `forward` in state `st`: input and output flattened.  (0 if the call
raises; the theorems that use it also say that it does not raise.) -/
noncomputable def forwardMap {n k : Nat} (m : Mod ℝ) (st : Store ℝ) (s : List Nat) (x : Fin n → ℝ) : Fin k → ℝ :=
  fun i => match (m.forward (ofSample s x) st).1 with
    | .ok t => t.data i
    | .error _ => 0

/-- the linear map `v ↦ J v` of a matrix -/
noncomputable def linMap {n k : Nat} (J : Matrix (Fin k) (Fin n) ℝ) : (Fin n → ℝ) →L[ℝ] (Fin k → ℝ) :=
  LinearMap.toContinuousLinearMap (Matrix.mulVecLin J)

end NNJ
