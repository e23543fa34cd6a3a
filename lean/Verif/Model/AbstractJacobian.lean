import Verif.Model.Basic

/-!
# nnj/abstract_jacobian.py

`AbstractJacobian` implements every product from `self.jacobian`; a subclass supplies `forward`
and `jacobian`.  `defaults` is the class with its one abstract method as a parameter.
-/

namespace NNJ
namespace AbstractJacobian
open Tensor

variable {α : Type} [Zero α] [One α] [Add α] [Mul α]

/-- Type of `self.jacobian(x, val, wrt=wrt)`.  nnj/abstract_jacobian.py:17-38. -/
abbrev Jac (α : Type) := Tensor α → Option (Tensor α) → Wrt → Res (Option (Tensor α))

/-- nnj/abstract_jacobian.py:17-38: the base class raises. -/
def jacobian : Jac α := fun _ _ _ => .error .notImplemented

/-- nnj/abstract_jacobian.py:45-70 -/
def jvp (jac : Jac α) (x : Tensor α) (val : Option (Tensor α)) (vector : Tensor α) (wrt : Wrt) :
    Res (Option (Tensor α)) := do
  match ← jac x val wrt with
  | none => pure none
  | some jacobian => some <$> einsum% "bij,bj->bi" [jacobian, vector]

/-- nnj/abstract_jacobian.py:73-86; a `None` matrix reaches `einsum`, a TypeError. -/
def jmp (jac : Jac α) (x : Tensor α) (val : Option (Tensor α)) (matrix : Option (Tensor α)) (wrt : Wrt) :
    Res (Option (Tensor α)) := do
  match ← jac x val wrt with
  | none => pure none
  | some jacobian => do
    let matrix ← needR matrix
    some <$> einsum% "bij,bjk->bik" [jacobian, matrix]

/-- nnj/abstract_jacobian.py:89-135 -/
def jmjTp (jac : Jac α) (x : Tensor α) (val : Option (Tensor α)) (matrix : Option (Tensor α)) (wrt : Wrt)
    (fromDiag toDiag diagBackprop : Bool) : Res (Option (Tensor α)) := do
  let (fromDiag, toDiag) := if diagBackprop then (true, true) else (fromDiag, toDiag)
  match ← jac x val wrt with
  | none => pure none
  | some jacobian => do
    let matrix ← needR matrix
    match fromDiag, toDiag with
    | false, false => some <$> einsum% "bij,bjk,blk->bil" [jacobian, matrix, jacobian]
    | true, false => some <$> einsum% "bij,bj,blj->bil" [jacobian, matrix, jacobian]
    | false, true => some <$> einsum% "bij,bjk,bik->bi" [jacobian, matrix, jacobian]
    | true, true => some <$> einsum% "bij,bj,bij->bi" [jacobian, matrix, jacobian]

/-- nnj/abstract_jacobian.py:142-167 -/
def vjp (jac : Jac α) (x : Tensor α) (val : Option (Tensor α)) (vector : Tensor α) (wrt : Wrt) :
    Res (Option (Tensor α)) := do
  match ← jac x val wrt with
  | none => pure none
  | some jacobian => some <$> einsum% "bi,bij->bj" [vector, jacobian]

/-- nnj/abstract_jacobian.py:170-183 -/
def mjp (jac : Jac α) (x : Tensor α) (val : Option (Tensor α)) (matrix : Option (Tensor α)) (wrt : Wrt) :
    Res (Option (Tensor α)) := do
  match ← jac x val wrt with
  | none => pure none
  | some jacobian => do
    let matrix ← needR matrix
    some <$> einsum% "bij,bjk->bik" [matrix, jacobian]

/-- nnj/abstract_jacobian.py:186-232 -/
def jTmjp (jac : Jac α) (x : Tensor α) (val : Option (Tensor α)) (matrix : Option (Tensor α)) (wrt : Wrt)
    (fromDiag toDiag diagBackprop : Bool) : Res (Option (Tensor α)) := do
  let (fromDiag, toDiag) := if diagBackprop then (true, true) else (fromDiag, toDiag)
  match ← jac x val wrt with
  | none => pure none
  | some jacobian => do
    let matrix ← needR matrix
    match fromDiag, toDiag with
    | false, false => some <$> einsum% "bji,bjk,bkl->bil" [jacobian, matrix, jacobian]
    | true, false => some <$> einsum% "bij,bj,bjl->bil" [jacobian, matrix, jacobian]
    | false, true => some <$> einsum% "bij,bjk,bki->bi" [jacobian, matrix, jacobian]
    | true, true => some <$> einsum% "bij,bj,bji->bi" [jacobian, matrix, jacobian]

/-- A subclass of `AbstractJacobian` that overrides only `jacobian` (and has a `forward`).
nnj/abstract_jacobian.py:41-232. -/
def defaults (forward : Tensor α → Res (Tensor α)) (jac : Jac α) : PureLayer α where
  forward := forward
  jacobian := jac
  jvp := jvp jac
  jmp := jmp jac
  jmjTp := jmjTp jac
  vjp := vjp jac
  mjp := mjp jac
  jTmjp := jTmjp jac

end AbstractJacobian

section Weights
variable {α : Type}

/-- First occurrences only: `nn.Module.named_parameters` skips parameters already seen.
Called at nnj/abstract_jacobian.py:239, 246. -/
def dedupFirst : List Nat → List Nat → List Nat
  | _, [] => []
  | seen, i :: is => if i ∈ seen then dedupFirst seen is else i :: dedupFirst (i :: seen) is

/-- `self.parameters()`.  nnj/abstract_jacobian.py:239, 246. -/
def Mod.parameters (m : Mod α) : List Nat := dedupFirst [] m.params

/-- nnj/abstract_jacobian.py:235-239, `torch.nn.utils.parameters_to_vector`: concatenation of the
flattened parameters; raises when there are none. -/
def Mod.getWeight (m : Mod α) : Prog α (Tensor α) := fun s =>
  (Tensor.cat 0 (m.parameters.map fun i => ⟨[(s.param i).numel], (s.param i).data⟩), s)

/-- Loop of `torch.nn.utils.vector_to_parameters`: each parameter takes the next `numel` entries;
when fewer are left, `view_as` raises and earlier parameters stay updated.  Called at nnj/abstract_jacobian.py:246. -/
def setWeightLoop (v : Tensor α) : List Nat → Nat → Prog α Unit
  | [], _ => Prog.pure ()
  | i :: is, p => fun s =>
    let n := (s.param i).numel
    if p + n ≤ v.numel then
      setWeightLoop v is (p + n)
        { s with param := fun j => if j = i then ⟨(s.param i).shape, fun k => v.data (p + k)⟩ else s.param j }
    else (.error .shape, s)

/-- nnj/abstract_jacobian.py:242-246.  `v` is 1-dimensional in torch usage; on higher ranks the
slice is along dimension 0 and this model does not apply. -/
def Mod.setWeight (m : Mod α) (v : Tensor α) : Prog α Unit := setWeightLoop v m.parameters 0

end Weights
end NNJ
