import Verif.Spec.Api

/-!
# The chain rule, in terms of calls on the layers
-/

namespace NNJ
open Matrix

/-- `LayerJacobians st c x v J JW`: calling the layers of the chain `c` one after the other in state `st`, on the batch `x`,
gives `v`; `J` is the product of the matrices that the `jacobian(..., None, wrt="input")` of the layers return, the last layer
to the left; and `JW` has, for every layer in order, its `jacobian(..., None, wrt="weight")` multiplied by the Jacobians of the
layers behind it. -/
inductive LayerJacobians (st : Store ℝ) {B : Nat} : {s s' : List Nat} → {n k p l : Nat} → Chain s n s' k p l → Tensor ℝ → Tensor ℝ →
    (Fin B → Matrix (Fin k) (Fin n) ℝ) → (Fin B → Matrix (Fin k) (Fin p) ℝ) → Prop
  | nil (s : List Nat) (n : Nat) (hs : size s = n) (hn : 0 < n) (x : Tensor ℝ) :
      LayerJacobians st (.nil s n hs hn) x x (fun _ => 1) (fun _ _ => Fin.elim0)
  | snoc {s s' s'' : List Nat} {n k j p q l : Nat} {c : Chain s n s' k p l} {m : Net s' k s'' j q} {x v v' jt jw : Tensor ℝ}
      {J : Fin B → Matrix (Fin k) (Fin n) ℝ} {JW : Fin B → Matrix (Fin k) (Fin p) ℝ}
      {K : Fin B → Matrix (Fin j) (Fin k) ℝ} {KW : Fin B → Matrix (Fin j) (Fin q) ℝ} :
      LayerJacobians st c x v J JW → Returns (m.mod.forward v) st v' →
      Returns (m.mod.jacobian v none .input) st (some jt) → IsMat jt B j k K →
      (0 < q → Returns (m.mod.jacobian v none .weight) st (some jw) ∧ IsMat jw B j q KW) →
      LayerJacobians st (.snoc c m) x v' (fun b => K b * J b) fun b i => Fin.append ((K b * JW b) i) (KW b i)

end NNJ
