import Verif.Model.Tests
import Verif.Model.AbstractJacobian

/-!
# The repository's own tests of `jacobian` (tests/jacobians.py)

Each of the two test functions for one layer and one input, statement by statement.  The reference in these tests is
torch's autograd, which is a parameter here (`Autograd`).  As in Verif/Model/Tests.lean numbers are real numbers.
-/

namespace NNJ
namespace Tests
open Tensor

/-- What the tests use of torch's autograd, for one layer.  `vjp x v` is `torch.autograd.functional.vjp(layer, x, v=v)[1]`
(tests/jacobians.py:160), which calls the layer.  `grads x o` are the contributions of `loss.backward()`, for `loss` the entry
`o` of the flattened `layer(x)` (tests/jacobians.py:196-197), to the gradients of the parameters: one tensor per position of
`layer.params`, so one per use of a parameter. -/
structure Autograd where
  vjp : Tensor ℝ → Tensor ℝ → Prog ℝ (Tensor ℝ)
  grads : Tensor ℝ → Nat → Prog ℝ (List (Tensor ℝ))

/-- `basis_vector` of tests/jacobians.py:156-159, of shape `[b, *shape]`; `k` is the number of entries per sample -/
def basis (b k o : Nat) (shape : List Nat) : Res (Tensor ℝ) :=
  (ofFn [b, k] fun idx => match idx with
    | [_, i] => if i = o then 1 else 0
    | _ => 0).reshape (b :: shape)

/-- `t[:, o, :] = row` for `t` of shape `[b, k, n]` and `row` of shape `[b, n]`, tests/jacobians.py:162; another shape is an
error (torch would also broadcast sizes 1, which cannot happen after line 161) -/
def setRows (t row : Tensor ℝ) (o : Nat) : Res (Tensor ℝ) :=
  match t.shape, row.shape with
  | [b, k, n], [b', n'] =>
    if b' = b ∧ n' = n ∧ o < k then
      .ok (ofFn [b, k, n] fun idx => match idx with
        | [a, i, j] => if i = o then row.get [a, j] else t.get idx
        | _ => t.get idx)
    else .error .shape
  | _, _ => .error .shape

/-- the loop of tests/jacobians.py:155-162 over the outputs in the list -/
def fillInput (ag : Autograd) (x : Tensor ℝ) (b k n : Nat) (outShape : List Nat) : List Nat → Tensor ℝ → Prog ℝ (Tensor ℝ)
  | [], t => pure t
  | o :: os, t => do
    let v ← (basis b k o outShape : Res _)
    let row ← ag.vjp x v
    let row ← (row.reshape [b, n] : Res _)
    let t ← (setRows t row o : Res _)
    fillInput ag x b k n outShape os t

/-- tests/jacobians.py:145-165 -/
noncomputable def jacInput (layer : Mod ℝ) (ag : Autograd) (x : Tensor ℝ) : Prog ℝ Unit := do
  let val ← layer.call x
  let b ← x.dim 0
  let n ← x.numel0
  let k ← val.numel0
  let j ← layer.jacobian x none .input
  let slow ← fillInput ag x b k n val.shape.tail (List.range k) (zeros [b, k, n])
  let j ← Prog.need j
  check j slow

/-- the attributes `grad` of the parameters; `None` before the first backward pass.  tests/jacobians.py:200-201. -/
abbrev Grads := Nat → Option (Tensor ℝ)

/-- `p.grad = t` (tests/jacobians.py:197, 201) -/
def Grads.set (buf : Grads) (i : Nat) (t : Tensor ℝ) : Grads := fun j => if j = i then some t else buf j

/-- `loss.backward()` adds the contributions to the `grad` of the parameters (tests/jacobians.py:197) -/
def accumulate : List Nat → List (Tensor ℝ) → Grads → Res Grads
  | i :: is, g :: gs, buf =>
    match buf i with
    | none => accumulate is gs (buf.set i g)
    | some h => do
      let t ← add h g
      accumulate is gs (buf.set i t)
  | _, _, buf => .ok buf

/-- the loop over `layer.parameters()` of tests/jacobians.py:198-201: the flattened gradients, each zeroed after it was
copied; a `grad` that is `None` raises -/
def collect : List Nat → Grads → Res (List (Tensor ℝ) × Grads)
  | [], buf => .ok ([], buf)
  | i :: is, buf => do
    let g ← needR (buf i)
    let r ← collect is (buf.set i (zerosLike g))
    pure (⟨[g.numel], g.data⟩ :: r.1, r.2)

/-- `t[b, o, :] = row` for `t` of shape `[B, k, p]` and a 1-dimensional `row`, of size `p` or 1 (then it is broadcast);
another size is an error.  tests/jacobians.py:203. -/
def setRow (t row : Tensor ℝ) (b o : Nat) : Res (Tensor ℝ) :=
  match t.shape, row.shape with
  | [B, k, p], [q] =>
    if b < B ∧ o < k then
      if q = p ∨ q = 1 then
        .ok (ofFn [B, k, p] fun idx => match idx with
          | [a, i, j] => if a = b ∧ i = o then row.get [if q = p then j else 0] else t.get idx
          | _ => t.get idx)
      else .error .shape
    else .error .index
  | _, _ => .error .shape

/-- the inner loop of tests/jacobians.py:195-203, over the outputs in the list, for sample `b`, which is `x1` -/
def fillOutputs (layer : Mod ℝ) (ag : Autograd) (x1 : Tensor ℝ) (b : Nat) : List Nat → Tensor ℝ → Grads → Prog ℝ (Tensor ℝ × Grads)
  | [], t, buf => pure (t, buf)
  | o :: os, t, buf => do
    let gs ← ag.grads x1 o
    let buf ← (accumulate layer.params gs buf : Res _)
    let r ← (collect layer.parameters buf : Res _)
    let row ← (cat 0 r.1 : Res _)
    let t ← (setRow t row b o : Res _)
    fillOutputs layer ag x1 b os t r.2

/-- the loop of tests/jacobians.py:193-203, over the samples in the list -/
def fillWeight (layer : Mod ℝ) (ag : Autograd) (x : Tensor ℝ) (k : Nat) : List Nat → Tensor ℝ → Grads → Prog ℝ (Tensor ℝ × Grads)
  | [], t, buf => pure (t, buf)
  | b :: bs, t, buf => do
    let x1 ← (x.slice 0 b (b + 1) : Res _)
    let val ← layer.call x1
    let _ ← (val.reshape [k] : Res _)
    let r ← fillOutputs layer ag x1 b (List.range k) t buf
    fillWeight layer ag x k bs r.1 r.2

/-- tests/jacobians.py:181-206; `buf` are the attributes `grad` before the test, and the result is what they are after it -/
noncomputable def jacWeight (layer : Mod ℝ) (ag : Autograd) (x : Tensor ℝ) (buf : Grads) : Prog ℝ Grads := do
  let val ← layer.call x
  let b ← x.dim 0
  let k ← val.numel0
  let j ← layer.jacobian x none .weight
  if layer.nParams = 0 then
    checkNone j
    pure buf
  else
    let r ← fillWeight layer ag x k (List.range b) (zeros [b, k, layer.nParams]) buf
    let j ← Prog.need j
    check j r.1
    pure r.2

end Tests
end NNJ
