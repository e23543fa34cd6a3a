import Verif.Model.Basic

/-!
# nnj/abstract_diagonal_jacobian.py

Layers with a diagonal Jacobian: a subclass supplies `forward` and
`jacobian(x, val, wrt, diag)`.
-/

namespace NNJ
namespace AbstractDiagonal
open Tensor

variable {α : Type} [Zero α] [One α] [Add α] [Mul α]

/-- Type of `self.jacobian(x, val, wrt=wrt, diag=diag)`.  nnj/abstract_diagonal_jacobian.py:16-25. -/
abbrev Jac (α : Type) := Tensor α → Option (Tensor α) → Wrt → Bool → Res (Option (Tensor α))

/-- Labels for the ellipsis of an einsum subscript covering `r` dimensions.
The ellipsis of nnj/abstract_diagonal_jacobian.py:63. -/
def ellipsis (r : Nat) : List Char := ['j', 'k', 'l', 'm', 'n', 'o', 'p', 'q'].take r

/-- nnj/abstract_diagonal_jacobian.py:16-25: the base class raises. -/
def jacobian : Jac α := fun _ _ _ _ => .error .notImplemented

/-- nnj/abstract_diagonal_jacobian.py:32-45 -/
def jvp (jac : Jac α) (x : Tensor α) (val : Option (Tensor α)) (vector : Tensor α) (wrt : Wrt) :
    Res (Option (Tensor α)) := do
  match ← jac x val wrt true with
  | none => pure none
  | some diagJacobian => some <$> einsum% "bj,bj->bj" [diagJacobian, vector]

/-- nnj/abstract_diagonal_jacobian.py:48-63; the ellipsis of "bi,bi...->bi..." is expanded to the
rank of `matrix` (up to 8 extra dimensions). -/
def jmp (jac : Jac α) (x : Tensor α) (val : Option (Tensor α)) (matrix : Option (Tensor α)) (wrt : Wrt) :
    Res (Option (Tensor α)) := do
  match matrix with
  | none => jac x val wrt false
  | some matrix =>
    match ← jac x val wrt true with
    | none => pure none
    | some diagJacobian =>
      let e := ellipsis (matrix.shape.length - 2)
      some <$> einsum [['b', 'i'], 'b' :: 'i' :: e] ('b' :: 'i' :: e) [diagJacobian, matrix]

/-- The final four-way branch shared by `jmjTp` and `jTmjp`
(nnj/abstract_diagonal_jacobian.py:88-101 and 164-177, textually the same). -/
def sandwich (diagJacobian matrix : Tensor α) (fromDiag toDiag : Bool) : Res (Option (Tensor α)) :=
  match fromDiag, toDiag with
  | false, false => some <$> einsum% "bi,bik,bk->bik" [diagJacobian, matrix, diagJacobian]
  | true, false => do
    let sq := diagJacobian.map fun a => a * a
    let d ← einsum% "bi,bi->bi" [sq, matrix]
    some <$> d.diagEmbed
  | false, true => some <$> einsum% "bi,bii,bi->bi" [diagJacobian, matrix, diagJacobian]
  | true, true => do
    let sq := diagJacobian.map fun a => a * a
    some <$> einsum% "bi,bi->bi" [sq, matrix]

/-- nnj/abstract_diagonal_jacobian.py:66-101 -/
def jmjTp (fwd : Tensor α → Res (Tensor α)) (jac : Jac α) (x : Tensor α) (val : Option (Tensor α))
    (matrix : Option (Tensor α)) (wrt : Wrt) (fromDiag toDiag _diagBackprop : Bool) :
    Res (Option (Tensor α)) := do
  let b ← x.dim 0
  let val ← match val with
    | none => fwd x
    | some v => pure v
  let (matrix, fromDiag) ← match matrix with
    | none => do pure (← (onesLike x).reshapeInfer [b] [], true)
    | some m => pure (m, fromDiag)
  match ← jac x (some val) wrt true with
  | none => pure none
  | some diagJacobian => sandwich diagJacobian matrix fromDiag toDiag

/-- nnj/abstract_diagonal_jacobian.py:108-121 -/
def vjp (jac : Jac α) (x : Tensor α) (val : Option (Tensor α)) (vector : Tensor α) (wrt : Wrt) :
    Res (Option (Tensor α)) := do
  match ← jac x val wrt true with
  | none => pure none
  | some diagJacobian => some <$> einsum% "bi,bi->bi" [vector, diagJacobian]

/-- nnj/abstract_diagonal_jacobian.py:124-139 -/
def mjp (jac : Jac α) (x : Tensor α) (val : Option (Tensor α)) (matrix : Option (Tensor α)) (wrt : Wrt) :
    Res (Option (Tensor α)) := do
  match matrix with
  | none => jac x val wrt false
  | some matrix =>
    match ← jac x val wrt true with
    | none => pure none
    | some diagJacobian => some <$> einsum% "bij,bj->bij" [matrix, diagJacobian]

/-- nnj/abstract_diagonal_jacobian.py:142-177 -/
def jTmjp (fwd : Tensor α → Res (Tensor α)) (jac : Jac α) (x : Tensor α) (val : Option (Tensor α))
    (matrix : Option (Tensor α)) (wrt : Wrt) (fromDiag toDiag _diagBackprop : Bool) :
    Res (Option (Tensor α)) := do
  let b ← x.dim 0
  let val ← match val with
    | none => fwd x
    | some v => pure v
  let (matrix, fromDiag) ← match matrix with
    | none => do pure (← (onesLike val).reshapeInfer [b] [], true)
    | some m => pure (m, fromDiag)
  match ← jac x (some val) wrt true with
  | none => pure none
  | some diagJacobian => sandwich diagJacobian matrix fromDiag toDiag

/-- A subclass that supplies `forward` and `jacobian`.  nnj/abstract_diagonal_jacobian.py:9-177. -/
def defaults (forward : Tensor α → Res (Tensor α)) (jac : Jac α) : PureLayer α where
  forward := forward
  jacobian x val wrt := jac x val wrt false
  jvp := jvp jac
  jmp := jmp jac
  jmjTp := jmjTp forward jac
  vjp := vjp jac
  mjp := mjp jac
  jTmjp := jTmjp forward jac

end AbstractDiagonal
end NNJ
