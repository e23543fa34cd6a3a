import Verif.Spec.LogLik

/-!
# Vocabulary for optimisation with the returned derivatives
-/

namespace NNJ

mutual
/-- only Flatten, Reshape and Upsample inside: entries are moved or copied -/
def Net.Moves : {s s' : List Nat} → {n k p : Nat} → Net s n s' k p → Prop
  | _, _, _, _, _, .linear _ _ _ _ _ _ _ => False
  | _, _, _, _, _, .act _ _ _ _ _ _ => False
  | _, _, _, _, _, .flatten _ _ _ _ _ => True
  | _, _, _, _, _, .reshape _ _ _ _ _ _ _ _ _ => True
  | _, _, _, _, _, .l2norm _ _ _ _ _ _ _ => False
  | _, _, _, _, _, .conv _ _ _ _ => False
  | _, _, _, _, _, .upsample _ _ _ _ _ _ _ _ _ => True
  | _, _, _, _, _, .maxpool _ _ => False
  | _, _, _, _, _, .seq _ c => c.Moves
  | _, _, _, _, _, .skip _ _ ch => ch.Moves
/-- the same for a list of layers -/
def Chain.Moves : {s s' : List Nat} → {n k p l : Nat} → Chain s n s' k p l → Prop
  | _, _, _, _, _, _, .nil _ _ _ _ => True
  | _, _, _, _, _, _, .snoc c m => c.Moves ∧ m.Moves
end

mutual
/-- fixed features, then at most one layer with parameters, then only layers that move or copy entries -/
def Net.LastLayer : {s s' : List Nat} → {n k p : Nat} → Net s n s' k p → Prop
  | _, _, _, _, _, .linear _ _ _ _ _ _ _ => True
  | _, _, _, _, _, .act _ _ _ _ _ _ => True
  | _, _, _, _, _, .flatten _ _ _ _ _ => True
  | _, _, _, _, _, .reshape _ _ _ _ _ _ _ _ _ => True
  | _, _, _, _, _, .l2norm _ _ _ _ _ _ _ => True
  | _, _, _, _, _, .conv _ _ _ _ => True
  | _, _, _, _, _, .upsample _ _ _ _ _ _ _ _ _ => True
  | _, _, _, _, _, .maxpool _ _ => True
  | _, _, _, _, _, .seq _ c => c.LastLayer
  | _, _, _, _, _, .skip _ _ ch => ch.LastLayer
/-- the same for a list of layers: `c` holds all but the last layer `m`, and has `pc` parameters -/
def Chain.LastLayer : {s s' : List Nat} → {n k p l : Nat} → Chain s n s' k p l → Prop
  | _, _, _, _, _, _, .nil _ _ _ _ => True
  | _, _, _, _, _, _, .snoc (p := pc) c m => (pc = 0 ∧ m.LastLayer) ∨ (c.LastLayer ∧ m.Moves)
end

variable {s s' : List Nat} {n k p : Nat}

/-- `forward` after `model.set_weight(w)` -/
noncomputable def Net.At (N : Net s n s' k p) (fwd : Prog ℝ (Option (Tensor ℝ))) (w : Fin p → ℝ) : Prog ℝ (Option (Tensor ℝ)) := do
  N.mod.setWeight (ofVec w)
  fwd

/-- no weights give `fwd` a larger value than `a` -/
def Net.Max (N : Net s n s' k p) (fwd : Prog ℝ (Option (Tensor ℝ))) (st : Store ℝ) (a : ℝ) : Prop :=
  ∀ w, ∃ a', ReturnsScalar (N.At fwd w) st a' ∧ a' ≤ a

/-- `grad` returns a vector `G`, `get_weight` a vector `w`, and if `G` is not 0, then `set_weight(w + η G)` increases `fwd` for all
small enough `η > 0` -/
def Net.Ascends (N : Net s n s' k p) (grad : Prog ℝ (PyVal ℝ)) (fwd : Prog ℝ (Option (Tensor ℝ))) (st : Store ℝ) : Prop :=
  ∃ wt w g G a, Returns N.mod.getWeight st wt ∧ IsVec1 wt p w ∧ Returns grad st (.tensor g) ∧ IsVec1 g p G ∧ ReturnsScalar fwd st a ∧
    (G ≠ 0 → ∃ ε : ℝ, 0 < ε ∧ ∀ η, 0 < η → η < ε → ∃ a', ReturnsScalar (N.At fwd (w + η • G)) st a' ∧ a < a')

/-- `grad` returns a vector, which is 0 exactly if the current weights maximise `fwd` -/
def Net.Stationary (N : Net s n s' k p) (grad : Prog ℝ (PyVal ℝ)) (fwd : Prog ℝ (Option (Tensor ℝ))) (st : Store ℝ) : Prop :=
  ∃ g G a, Returns grad st (.tensor g) ∧ IsVec1 g p G ∧ ReturnsScalar fwd st a ∧ (G = 0 ↔ N.Max fwd st a)

/-- `grad` returns a vector `G`, `hess` a matrix `H`, `get_weight` a vector `w`; the equation `H d = -G` has solutions, and they are the
`d` for which `w + d` maximises `fwd` -/
def Net.Newton (N : Net s n s' k p) (grad hess : Prog ℝ (PyVal ℝ)) (fwd : Prog ℝ (Option (Tensor ℝ))) (st : Store ℝ) : Prop :=
  ∃ wt w g G h H, Returns N.mod.getWeight st wt ∧ IsVec1 wt p w ∧ Returns grad st (.tensor g) ∧ IsVec1 g p G ∧
    Returns hess st (.tensor h) ∧ IsMat1 h p p H ∧ (∃ d, Matrix.mulVec H d = -G) ∧
    ∀ d, Matrix.mulVec H d = -G ↔ ∃ a, ReturnsScalar (N.At fwd (w + d)) st a ∧ N.Max fwd st a

end NNJ
