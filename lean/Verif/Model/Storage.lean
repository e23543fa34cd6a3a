import Verif.Model.AbstractJacobian

/-!
# The storage behind the parameters

`Store.param` of Verif/Model/Basic.lean says which tensor a parameter holds.  In torch a tensor is a view into a storage, and
several tensors can be views into the same one: `torch.nn.utils.vector_to_parameters` (called at nnj/abstract_jacobian.py:246) assigns
`param.data = vec[pointer : pointer + num_param].view_as(param).data`, a view into the storage of the given vector, and
nnj/utils.py:18-19, 26-27 assign `nnj_layer.weight.data = layer.weight.data`.  `torch.cat` (in `parameters_to_vector`, called at
nnj/abstract_jacobian.py:239) writes to a new storage.  Simplification: all views are contiguous.
-/

namespace NNJ

/-- A contiguous tensor as torch holds it: storage, offset, shape.  The parameters and vectors of nnj/abstract_jacobian.py:235-246. -/
structure View where
  buf : Nat
  off : Nat
  shape : List Nat

/-- The state with storages: `mem b k` is entry `k` of storage `b`, `view i` the tensor held by the parameter `i`; `rest` has the
attributes that are not parameters (its `param` is unused).  The objects of nnj/*.py. -/
structure Heap (α : Type) where
  mem : Nat → Nat → α
  view : Nat → View
  rest : Store α

namespace Heap
variable {α : Type}

/-- The values of a tensor: what any reading torch function sees (nnj/*.py). -/
def read (h : Heap α) (v : View) : Tensor α := ⟨v.shape, fun k => h.mem v.buf (v.off + k)⟩

/-- The state of Verif/Model/Basic.lean: values without storages (nnj/*.py). -/
def store (h : Heap α) : Store α := { h.rest with param := fun i => h.read (h.view i) }

/-- `param.data = t.data`: nnj/utils.py:18-19, 26-27 and `torch.nn.utils.vector_to_parameters`. -/
def setData (i : Nat) (v : View) (h : Heap α) : Heap α := { h with view := fun j => if j = i then v else h.view j }

/-- Loop of `torch.nn.utils.vector_to_parameters` (called at nnj/abstract_jacobian.py:246). -/
def setLoop (v : View) : List Nat → Nat → Heap α → Res Unit × Heap α
  | [], _, h => (.ok (), h)
  | i :: is, p, h =>
    let n := size (h.view i).shape
    if p + n ≤ size v.shape then setLoop v is (p + n) (h.setData i ⟨v.buf, v.off + p, (h.view i).shape⟩)
    else (.error .shape, h)

/-- nnj/abstract_jacobian.py:242-246. -/
def setWeight (m : Mod α) (v : View) (h : Heap α) : Res Unit × Heap α := setLoop v m.parameters 0 h

/-- nnj/abstract_jacobian.py:235-239: `torch.cat` writes the result to a new storage `b`, here one no parameter is a view into. -/
def getWeight (m : Mod α) (b : Nat) (h : Heap α) : Res View × Heap α :=
  match m.getWeight h.store with
  | (.ok t, _) => (.ok ⟨b, 0, t.shape⟩, { h with mem := fun c => if c = b then t.data else h.mem c })
  | (.error e, _) => (.error e, h)

/-- Writing one entry of a storage in place, as `w[k] = a` does; in-place functions such as `w.add_(u)` and the steps of optimisers are
sequences of these.  Not in nnj/*.py, but done to its objects by its users. -/
def write (b k : Nat) (a : α) (h : Heap α) : Heap α :=
  { h with mem := fun c j => if c = b ∧ j = k then a else h.mem c j }

/-- nnj/utils.py:18-19, 26-27 for all parameters of a converted network: pairs of new and given parameter. -/
def share : List (Nat × Nat) → Heap α → Heap α
  | [], h => h
  | (i, j) :: ps, h => share ps (h.setData i (h.view j))

end Heap
end NNJ
