import Verif.Torch.Tensor

/-!
# `torch.cholesky_inverse`

As LAPACK `potri`: the lower triangle `L` of the argument is inverted by forward substitution (`X`, with
`L X = 1`), the result is `Xᵀ X`.  The strict upper triangle of the argument is never read.  A zero on
the diagonal makes torch raise (singular factor).  Rounding is not modelled.
-/

namespace NNJ
namespace Torch
open Tensor

variable {α : Type} [Zero α] [One α] [Add α] [Sub α] [Mul α] [Div α] [DecidableEq α]

/-- the first `i` entries of column `j` of the inverse of the lower triangle of `L`: forward substitution
(torch `cholesky_inverse`, used at nnj/utils.py:45) -/
def triCol (L : Nat → Nat → α) (j : Nat) : Nat → Nat → α
  | 0, _ => 0
  | i + 1, k =>
    if k = i then ((if i = j then 1 else 0) - sumRange i fun l => L i l * triCol L j i l) / L i i
    else triCol L j i k

/-- entry `i, j` of the result for one `n x n` matrix (torch `cholesky_inverse`, used at
nnj/utils.py:45) -/
def cholInvEntry (n : Nat) (L : Nat → Nat → α) (i j : Nat) : α :=
  sumRange n fun k => triCol L i n k * triCol L j n k

/-- entry `i, j` of the `b`-th `n x n` matrix of a tensor of shape `[*, n, n]`.  Arguments of nnj/utils.py:45. -/
def blockGet (t : Tensor α) (n b i j : Nat) : α := t.data (b * (n * n) + i * n + j)

/-- `torch.cholesky_inverse(t)` (nnj/utils.py:45) for `t` of shape `[*, n, n]` -/
def choleskyInverse (t : Tensor α) : Res (Tensor α) :=
  match t.shape.reverse with
  | n :: m :: pre =>
    if n ≠ m then .error .shape
    else if (List.range (size pre)).any fun b => (List.range n).any fun i => decide (blockGet t n b i i = 0) then .error .shape
    else .ok ⟨t.shape, fun k => cholInvEntry n (blockGet t n (k / (n * n))) (k % (n * n) / n) (k % n)⟩
  | _ => .error .shape

end Torch
end NNJ
