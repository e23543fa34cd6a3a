import Verif.Model.AbstractDiagonalJacobian

/-!
# Elementwise activations: nnj/relu.py, sigmoid.py, tanh.py, sinusoidal.py, softplus.py,
truncexp.py

Each class supplies `forward` and the diagonal of its Jacobian; all products are inherited from
`AbstractDiagonalJacobian`.
-/

namespace NNJ

/-- Elementary functions of the scalar type.
exp: nnj/truncexp.py:14-16 and the sigmoid; log: Softplus; sin, cos: nnj/sinusoidal.py:14-36; tanh: nnj/tanh.py:9-32. -/
class Trans (α : Type) where
  exp : α → α
  log : α → α
  tanh : α → α
  sin : α → α
  cos : α → α
  sqrt : α → α

namespace Activation
open Tensor

variable {α : Type}

/-- The common shape of the six `jacobian` methods (e.g. nnj/relu.py:15-29): compute the diagonal
from `x` and `val`, flatten it, embed it unless `diag`. -/
def jacobian [Zero α] (forward : Tensor α → Res (Tensor α)) (diagOf : Tensor α → Tensor α → Tensor α)
    (x : Tensor α) (val : Option (Tensor α)) (wrt : Wrt) (diag : Bool) : Res (Option (Tensor α)) := do
  match wrt with
  | .input => do
    let val ← match val with
      | none => forward x
      | some v => pure v
    let b ← val.dim 0
    let d ← (diagOf x val).reshapeInfer [b] []
    if diag then pure (some d) else some <$> d.diagEmbed
  | .weight => pure none
  | .other => pure none

/-- An activation: elementwise `f`, Jacobian diagonal `g x val` elementwise.
The common form of nnj/{relu,sigmoid,tanh,softplus,sinusoidal,truncexp}.py. -/
def layer [Zero α] [One α] [Add α] [Mul α] (f : α → α) (diagOf : Tensor α → Tensor α → Tensor α) :
    PureLayer α :=
  AbstractDiagonal.defaults (fun x => .ok (x.map f)) (jacobian (fun x => .ok (x.map f)) diagOf)

section
variable [Zero α] [One α] [Add α] [Mul α]

/-- `nn.ReLU.forward` elementwise (a NaN stays, as in torch).  Inherited at nnj/relu.py:9. -/
def reluF [LT α] [DecidableLT α] (a : α) : α := if a < 0 then 0 else a

/-- nnj/relu.py:22: `(val > 0.0).type(val.dtype)` -/
def reluDiag [LT α] [DecidableLT α] (_x val : Tensor α) : Tensor α :=
  val.map fun v => if 0 < v then 1 else 0

/-- nnj/relu.py:9-29 -/
def relu [LT α] [DecidableLT α] : PureLayer α := layer reluF reluDiag

/-- `nn.Sigmoid.forward` elementwise.  Inherited at nnj/sigmoid.py:9. -/
def sigmoidF [Neg α] [Div α] [Trans α] (a : α) : α := 1 / (1 + Trans.exp (-a))

/-- nnj/sigmoid.py:26: `val * (1.0 - val)` -/
def sigmoidDiag [Sub α] (_x val : Tensor α) : Tensor α := val.map fun v => v * (1 - v)

/-- nnj/sigmoid.py:9-33 -/
def sigmoid [Neg α] [Sub α] [Div α] [Trans α] : PureLayer α := layer sigmoidF sigmoidDiag

/-- nnj/tanh.py:26: `torch.ones_like(val) - val**2` -/
def tanhDiag [Sub α] (_x val : Tensor α) : Tensor α := val.map fun v => 1 - v * v

/-- nnj/tanh.py:9-33 -/
def tanh [Sub α] [Trans α] : PureLayer α := layer Trans.tanh tanhDiag

/-- nnj/sinusoidal.py:30: `torch.cos(x)` -/
def sinDiag [Trans α] (x _val : Tensor α) : Tensor α := x.map Trans.cos

/-- nnj/sinusoidal.py:9-37 -/
def sinusoidal [Trans α] : PureLayer α := layer Trans.sin sinDiag

/-- `nn.Softplus.forward` elementwise: identity above the threshold.  Inherited at nnj/softplus.py:9. -/
def softplusF [Div α] [LT α] [DecidableLT α] [Trans α] (beta threshold : α) (a : α) : α :=
  if threshold < a * beta then a else Trans.log (1 + Trans.exp (beta * a)) / beta

/-- nnj/softplus.py:26: `torch.sigmoid(self.beta * x)` (for every x, also above the threshold) -/
def softplusDiag [Neg α] [Div α] [Trans α] (beta : α) (x _val : Tensor α) : Tensor α :=
  x.map fun a => sigmoidF (beta * a)

/-- nnj/softplus.py:9-33; `threshold` is 20 by default in torch. -/
def softplus [Neg α] [Div α] [LT α] [DecidableLT α] [Trans α] (beta threshold : α) : PureLayer α :=
  layer (softplusF beta threshold) (softplusDiag beta)

/-- `x.clamp(-15, 15)`.  nnj/truncexp.py:47. -/
def clamp15 [Neg α] [NatCast α] [LT α] [DecidableLT α] (a : α) : α :=
  let hi : α := ((15 : Nat) : α)
  if a < -hi then -hi else if hi < a then hi else a

/-- nnj/truncexp.py:47: `torch.exp(x.clamp(-15, 15))` -/
def truncExpDiag [Neg α] [NatCast α] [LT α] [DecidableLT α] [Trans α] (x _val : Tensor α) : Tensor α :=
  x.map fun a => Trans.exp (clamp15 a)

/-- nnj/truncexp.py:25-54; the forward pass is `exp` (truncexp.py:14-16), the clamp appears only in
derivatives.  The custom autograd function is not modelled. -/
def truncExp [Neg α] [NatCast α] [LT α] [DecidableLT α] [Trans α] : PureLayer α :=
  layer Trans.exp truncExpDiag

/-- The diagonal that a user-defined elementwise layer computes from `x` and `val`, entry by entry: nnj/abstract_diagonal_jacobian.py:16-25 ("this function has to
be implemented for every new nnj layer"), README.md:66-89.  For `x` and `val` of one shape (torch broadcasts others). -/
def customDiag (g : α → α → α) (x val : Tensor α) : Tensor α := ⟨val.shape, fun i => g (x.data i) (val.data i)⟩

/-- A user-defined elementwise layer: a subclass of AbstractDiagonalJacobian (nnj/abstract_diagonal_jacobian.py:9-14) written like nnj/sinusoidal.py:9-37,
with the forward function `f` and the Jacobian diagonal `g x val`. -/
def custom (f : α → α) (g : α → α → α) : PureLayer α := layer f (customDiag g)

end

/-- A parameter-free layer as a module object.  Constructors such as nnj/relu.py:10-12. -/
def toMod (L : PureLayer α) (id : Nat) : Mod α := PureLayer.toMod (fun _ => L) id 0 []

end Activation
end NNJ
