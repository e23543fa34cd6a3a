import Verif.Model.AbstractDiagonalJacobian

/-!
# nnj/reshape.py and nnj/flatten.py

The two classes differ only in `forward`; every method body is textually the same, so the model
has one definition per method with `forward` as a parameter.
-/

namespace NNJ
namespace Resh
open Tensor

variable {α : Type} [Zero α] [One α] [Add α] [Mul α]

/-- nnj/flatten.py:15-17: `x.reshape(x.shape[0], -1)` -/
def flattenForward (x : Tensor α) : Res (Tensor α) := do
  let b ← x.dim 0
  x.reshapeInfer [b] []

/-- nnj/reshape.py:16-18: `x.reshape(x.shape[0], *self.dims)` -/
def reshapeForward (dims : List Int) (x : Tensor α) : Res (Tensor α) := do
  let b ← x.dim 0
  x.reshapeOpen (b :: dims)

/-- nnj/reshape.py:21-37, nnj/flatten.py:20-36 -/
def jacobian (x : Tensor α) (_val : Option (Tensor α)) (wrt : Wrt) (diag : Bool) : Res (Option (Tensor α)) := do
  match wrt with
  | .input => do
    let b ← x.dim 0
    let d ← (onesLike x).reshapeInfer [b] []
    if diag then pure (some d) else some <$> d.diagEmbed
  | .weight => pure none
  | .other => pure none

/-- nnj/reshape.py:44-57, nnj/flatten.py:43-56 -/
def jvp (_x : Tensor α) (_val : Option (Tensor α)) (vector : Tensor α) (wrt : Wrt) : Res (Option (Tensor α)) :=
  match wrt with
  | .input => .ok (some vector)
  | _ => .ok none

/-- nnj/reshape.py:60-75, nnj/flatten.py:59-74; also `mjp` (reshape.py:132-147, flatten.py:131-146),
textually the same -/
def jmp (_x : Tensor α) (_val : Option (Tensor α)) (matrix : Option (Tensor α)) (wrt : Wrt) :
    Res (Option (Tensor α)) :=
  match wrt with
  | .input =>
    match matrix with
    | none => .error .notImplemented
    | some m => .ok (some m)
  | _ => .ok none

/-- The four-way branch shared by `jmjTp` and `jTmjp` (flatten.py:95-106 and 169-180). -/
def sandwich (matrix : Tensor α) (fromDiag toDiag : Bool) : Res (Option (Tensor α)) :=
  match fromDiag, toDiag with
  | false, false => .ok (some matrix)
  | true, false => some <$> matrix.diagEmbed
  | false, true => some <$> einsum% "bii->bi" [matrix]
  | true, true => .ok (some matrix)

/-- nnj/reshape.py:78-109, nnj/flatten.py:77-108 -/
def jmjTp (x : Tensor α) (_val : Option (Tensor α)) (matrix : Option (Tensor α)) (wrt : Wrt)
    (fromDiag toDiag _diagBackprop : Bool) : Res (Option (Tensor α)) := do
  let (matrix, fromDiag) ← match matrix with
    | none => do
      let b ← x.dim 0
      pure (← (onesLike x).reshapeInfer [b] [], true)
    | some m => pure (m, fromDiag)
  match wrt with
  | .input => sandwich matrix fromDiag toDiag
  | _ => pure none

/-- nnj/reshape.py:116-129, nnj/flatten.py:115-128 -/
def vjp (_x : Tensor α) (_val : Option (Tensor α)) (vector : Tensor α) (wrt : Wrt) : Res (Option (Tensor α)) :=
  match wrt with
  | .input => .ok (some vector)
  | _ => .ok none

/-- nnj/reshape.py:150-183, nnj/flatten.py:149-182 -/
def jTmjp (fwd : Tensor α → Res (Tensor α)) (x : Tensor α) (val : Option (Tensor α)) (matrix : Option (Tensor α))
    (wrt : Wrt) (fromDiag toDiag _diagBackprop : Bool) : Res (Option (Tensor α)) := do
  let val ← match val with
    | none => fwd x
    | some v => pure v
  let (matrix, fromDiag) ← match matrix with
    | none => do
      let b ← x.dim 0
      pure (← (onesLike val).reshapeInfer [b] [], true)
    | some m => pure (m, fromDiag)
  match wrt with
  | .input => sandwich matrix fromDiag toDiag
  | _ => pure none

/-- The methods of `nnj.Reshape` and `nnj.Flatten`, nnj/reshape.py:9-183, nnj/flatten.py:9-182 -/
def layer (fwd : Tensor α → Res (Tensor α)) : PureLayer α where
  forward := fwd
  jacobian x val wrt := jacobian x val wrt false
  jvp := jvp
  jmp := jmp
  jmjTp := jmjTp
  vjp := vjp
  mjp := jmp
  jTmjp := jTmjp fwd

/-- `nnj.Flatten()` (flatten.py:9-13) -/
def flatten (id : Nat) : Mod α := PureLayer.toMod (fun _ => layer flattenForward) id 0 []

/-- `nnj.Reshape(*dims)` (reshape.py:9-13) -/
def reshape (dims : List Int) (id : Nat) : Mod α :=
  PureLayer.toMod (fun _ => layer (reshapeForward dims)) id 0 []

end Resh
end NNJ
