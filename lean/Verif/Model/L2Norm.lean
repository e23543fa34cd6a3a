import Verif.Model.AbstractJacobian
import Verif.Model.Activations

/-!
# nnj/l2norm.py
-/

namespace NNJ
namespace L2Norm
open Tensor

variable {α : Type} [Zero α] [One α] [Add α] [Sub α] [Mul α] [Div α] [Trans α]

/-- `torch.norm(x, p=2, dim=1)` of a rank 2 tensor.  nnj/l2norm.py:18, 38. -/
def rowNorm (x : Tensor α) : Res (Tensor α) :=
  match x.shape with
  | [b, n] => .ok ⟨[b], fun k => Trans.sqrt (sumRange n fun i => x.data (k * n + i) * x.data (k * n + i))⟩
  | _ => .error .index

/-- `1.0 / (norm + self.eps)`.  nnj/l2norm.py:19, 39, 42. -/
def inv (eps : α) (norm : Tensor α) : Tensor α := norm.map fun a => 1 / (a + eps)

/-- nnj/l2norm.py:17-20; the ellipsis of "b,b...->b..." is expanded to the rank of `x`. -/
def forward (eps : α) (x : Tensor α) : Res (Tensor α) := do
  let b ← x.dim 0
  let xf ← x.reshapeInfer [b] []
  let norm ← rowNorm xf
  let e := AbstractDiagonal.ellipsis (x.shape.length - 1)
  einsum [['b'], 'b' :: e] ('b' :: e) [inv eps norm, x]

/-- nnj/l2norm.py:23-46 with `diag=False` (with `diag=True` it raises NotImplementedError; no caller
in nnj passes it). -/
def jacobian (eps : α) (x : Tensor α) (val : Option (Tensor α)) (wrt : Wrt) : Res (Option (Tensor α)) := do
  match wrt with
  | .input => do
    let _val ← match val with
      | none => forward eps x
      | some v => pure v
    let b0 ← x.dim 0
    let x ← x.reshapeInfer [b0] []
    let (b, d) ← x.dims2
    let norm ← rowNorm x
    let normalized ← einsum% "b,bi->bi" [inv eps norm, x]
    let j ← einsum% "bi,bj->bij" [normalized, normalized]
    let eye ← (ones [d] : Tensor α).diagEmbed
    let eye ← eye.unsqueeze 0
    let eye ← eye.expandAt 0 b
    let j ← eye.sub j
    some <$> einsum% "b,bij->bij" [inv eps norm, j]
  | .weight => pure none
  | .other => pure none

/-- `nnj.L2Norm(eps)`: everything else is inherited from `AbstractJacobian`.  nnj/l2norm.py:9-15. -/
def layer (eps : α) : PureLayer α := AbstractJacobian.defaults (forward eps) (jacobian eps)

/-- `nnj.L2Norm(eps)` as a module object, nnj/l2norm.py:12-15 -/
def mod (eps : α) (id : Nat) : Mod α := PureLayer.toMod (fun _ => layer eps) id 0 []

end L2Norm
end NNJ
