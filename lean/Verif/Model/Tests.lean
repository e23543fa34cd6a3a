import Verif.Model.Basic
import Mathlib.Data.Real.Basic

/-!
# The repository's own tests of the products (tests/jacobian_products.py)

Each test function for one layer and one input, statement by statement.  `randn i s` is the result of the `i`-th
call of `torch.randn` in the test, with shape `s`.  A test that returns has passed; a failing `assert` raises.
Numbers are real numbers here as everywhere (no rounding), so what a passing test shows is the formula, not the
size of the rounding errors.
-/

namespace NNJ
namespace Tests
open Tensor

/-- `torch.randn`: the i-th call.  E.g. tests/jacobian_products.py:193. -/
abbrev Draws := Nat → List Nat → Tensor ℝ

open Classical in
/-- `torch.isclose(a, b, atol=1e-4).all()`, with the default `rtol=1e-5`: `|a - b| <= atol + rtol * |b|`.
E.g. tests/jacobian_products.py:200. -/
noncomputable def isCloseAll (a b : Tensor ℝ) : Res Bool := do
  let d ← zipWithB (fun u v => if |u - v| ≤ 1 / 10000 + 1 / 100000 * |v| then 1 else 0) a b
  pure (decide (∀ i < d.numel, d.data i = 1))

/-- the two assertions at the end of the tests: equal shapes, close entries.  tests/jacobian_products.py:199-200. -/
noncomputable def check (fast slow : Tensor ℝ) : Prog ℝ Unit := do
  Prog.assert (fast.shape == slow.shape)
  let c ← (isCloseAll fast slow : Res Bool)
  Prog.assert c

/-- `assert r is None`.  E.g. tests/jacobian_products.py:208. -/
def checkNone (r : Option (Tensor ℝ)) : Prog ℝ Unit := Prog.assert r.isNone

/-- tests/jacobian_products.py:192-200 -/
noncomputable def jvpInput (layer : Mod ℝ) (x : Tensor ℝ) (randn : Draws) : Prog ℝ Unit := do
  let b ← x.dim 0
  let n ← x.numel0
  let tangent := randn 0 [b, n]
  let j ← layer.jacobian x none .input
  let j ← Prog.need j
  let slow ← (einsum% "bij, bj -> bi" [j, tangent] : Res _)
  let fast ← layer.jvp x none tangent .input
  let fast ← Prog.need fast
  check fast slow

/-- tests/jacobian_products.py:202-214 -/
noncomputable def jvpWeight (layer : Mod ℝ) (x : Tensor ℝ) (randn : Draws) : Prog ℝ Unit := do
  let b ← x.dim 0
  let tangent := randn 0 [b, layer.nParams]
  let fast ← layer.jvp x none tangent .weight
  if layer.nParams = 0 then
    checkNone fast
  else
    let j ← layer.jacobian x none .weight
    let j ← Prog.need j
    let slow ← (einsum% "bij, bj -> bi" [j, tangent] : Res _)
    let fast ← Prog.need fast
    check fast slow

/-- tests/jacobian_products.py:233-242 -/
noncomputable def vjpInput (layer : Mod ℝ) (x : Tensor ℝ) (randn : Draws) : Prog ℝ Unit := do
  let output ← layer.call x
  let b ← output.dim 0
  let k ← output.numel0
  let tangent := randn 0 [b, k]
  let j ← layer.jacobian x none .input
  let j ← Prog.need j
  let slow ← (einsum% "bi, bij -> bj" [tangent, j] : Res _)
  let fast ← layer.vjp x none tangent .input
  let fast ← Prog.need fast
  check fast slow

/-- tests/jacobian_products.py:244-256 -/
noncomputable def vjpWeight (layer : Mod ℝ) (x : Tensor ℝ) (randn : Draws) : Prog ℝ Unit := do
  let output ← layer.call x
  let b ← output.dim 0
  let k ← output.numel0
  let tangent := randn 0 [b, k]
  let fast ← layer.vjp x none tangent .weight
  if layer.nParams = 0 then
    checkNone fast
  else
    let j ← layer.jacobian x none .weight
    let j ← Prog.need j
    let slow ← (einsum% "bi, bij -> bj" [tangent, j] : Res _)
    let fast ← Prog.need fast
    check fast slow

/-- tests/jacobian_products.py:280-290; `nColumns` is 120 there -/
noncomputable def jmpInput (nColumns : Nat) (layer : Mod ℝ) (x : Tensor ℝ) (randn : Draws) : Prog ℝ Unit := do
  let b ← x.dim 0
  let tangent := randn 0 [b, size x.shape.tail, nColumns]
  let j ← layer.jacobian x none .input
  let j ← Prog.need j
  let slow ← (einsum% "bij, bjk -> bik" [j, tangent] : Res _)
  let fast ← layer.jmp x none (some tangent) .input
  let fast ← Prog.need fast
  check fast slow

/-- tests/jacobian_products.py:292-305; `nColumns` is 120 there -/
noncomputable def jmpWeight (nColumns : Nat) (layer : Mod ℝ) (x : Tensor ℝ) (randn : Draws) : Prog ℝ Unit := do
  let b ← x.dim 0
  let tangent := randn 0 [b, layer.nParams, nColumns]
  let fast ← layer.jmp x none (some tangent) .weight
  if layer.nParams = 0 then
    checkNone fast
  else
    let j ← layer.jacobian x none .weight
    let j ← Prog.need j
    let slow ← (einsum% "bij, bjk -> bik" [j, tangent] : Res _)
    let fast ← Prog.need fast
    check fast slow

/-- tests/jacobian_products.py:324-335; `nRows` is 120 there -/
noncomputable def mjpInput (nRows : Nat) (layer : Mod ℝ) (x : Tensor ℝ) (randn : Draws) : Prog ℝ Unit := do
  let b ← x.dim 0
  let output ← layer.call x
  let tangent := randn 0 [b, nRows, size output.shape.tail]
  let j ← layer.jacobian x none .input
  let j ← Prog.need j
  let slow ← (einsum% "bij, bjk -> bik" [tangent, j] : Res _)
  let fast ← layer.mjp x none (some tangent) .input
  let fast ← Prog.need fast
  check fast slow

/-- tests/jacobian_products.py:337-351; `nRows` is 120 there -/
noncomputable def mjpWeight (nRows : Nat) (layer : Mod ℝ) (x : Tensor ℝ) (randn : Draws) : Prog ℝ Unit := do
  let b ← x.dim 0
  let output ← layer.call x
  let tangent := randn 0 [b, nRows, size output.shape.tail]
  let fast ← layer.mjp x none (some tangent) .weight
  if layer.nParams = 0 then
    checkNone fast
  else
    let j ← layer.jacobian x none .weight
    let j ← Prog.need j
    let slow ← (einsum% "bij, bjk -> bik" [tangent, j] : Res _)
    let fast ← Prog.need fast
    check fast slow

/-- tests/jacobian_products.py:375-408 -/
noncomputable def jmjTpInput (fromDiag toDiag : Bool) (layer : Mod ℝ) (x : Tensor ℝ) (randn : Draws) : Prog ℝ Unit := do
  let b ← x.dim 0
  let n := size x.shape.tail
  let j ← layer.jacobian x none .input
  let j ← Prog.need j
  let tangent := randn 0 (if fromDiag then [b, n] else [b, n, n])
  let slow ← (match fromDiag, toDiag with
    | false, false => einsum% "bij, bjk, bqk -> biq" [j, tangent, j]
    | false, true => einsum% "bij, bjk, bik -> bi" [j, tangent, j]
    | true, false => einsum% "bij, bj, bqj -> biq" [j, tangent, j]
    | true, true => einsum% "bij, bj, bij -> bi" [j, tangent, j] : Res _)
  let fast ← layer.jmjTp x none (.tensor tangent) .input fromDiag toDiag false
  let fast ← Prog.need fast
  check fast slow

/-- What `generate_random_matrix_params` sees of a module: a Sequential or SkipConnection and its submodules (those
of `_F`), or a layer and its `_n_params`.  tests/jacobian_products.py:413-422. -/
inductive Tree where
  | layer (nParams : Nat)
  | container (submodules : List Tree)

/-- `is not None` (tests/jacobian_products.py:419) -/
def notNone : PyVal ℝ → Bool
  | .none => false
  | _ => true

mutual
/-- `generate_random_matrix_params`, tests/jacobian_products.py:412-422; the number is that of the next call of `torch.randn`. -/
def generate (randn : Draws) (b : Nat) : Tree → Nat → PyVal ℝ × Nat
  | .layer np, i => if np = 0 then (.none, i) else (.tensor (randn i [b, np, np]), i + 1)
  | .container ts, i =>
    let r := generateAll randn b ts i
    (.list (r.1.filter notNone), r.2)
/-- the list comprehension of tests/jacobian_products.py:416-418 -/
def generateAll (randn : Draws) (b : Nat) : List Tree → Nat → List (PyVal ℝ) × Nat
  | [], i => ([], i)
  | t :: ts, i =>
    let r := generate randn b t i
    let rs := generateAll randn b ts r.2
    (r.1 :: rs.1, rs.2)
end

/-- `embedded[:, i : i + r, j : j + c] = sub` for a `sub` of shape `[batch, r, c]`; another shape is an error (torch would
also broadcast a batch of size 1, which cannot happen here).  tests/jacobian_products.py:433-435. -/
def setBlock (t sub : Tensor ℝ) (i j : Nat) : Res (Tensor ℝ) :=
  match t.shape, sub.shape with
  | [b, n, m], [b', r, c] =>
    if b' = b ∧ i + r ≤ n ∧ j + c ≤ m then
      .ok (ofFn [b, n, m] fun idx => match idx with
        | [a, y, z] => if i ≤ y ∧ y < i + r ∧ j ≤ z ∧ z < j + c then sub.get [a, y - i, z - j] else t.get idx
        | _ => t.get idx)
    else .error .shape
  | _, _ => .error .shape

/-- the loop of tests/jacobian_products.py:431-437 -/
def placeBlocks : List (Tensor ℝ) → Tensor ℝ × Nat × Nat → Res (Tensor ℝ × Nat × Nat)
  | [], st => .ok st
  | sub :: subs, (t, i, j) => do
    let t ← setBlock t sub i j
    let r ← sub.dim 1
    let c ← sub.dim 2
    placeBlocks subs (t, i + r, j + c)

/-- `sum([submatrix.shape[d] for submatrix in ...])`, tests/jacobian_products.py:428-429 -/
def sumDims (d : Nat) : List (Tensor ℝ) → Res Nat
  | [] => .ok 0
  | t :: ts => do
    let r ← t.dim d
    let rs ← sumDims d ts
    pure (r + rs)

mutual
/-- `embed_block_diagonal`, tests/jacobian_products.py:424-439.  (A `None` would be returned as it is and fail where it is
used; there is none inside the lists.) -/
def embed : PyVal ℝ → Res (Tensor ℝ)
  | .none => .error .attribute
  | .tensor t => .ok t
  | .list vs => do
    let subs ← embedAll vs
    match subs with
    | [] => .error .index
    | sub :: _ =>
      let b ← sub.dim 0
      let nRow ← sumDims 1 subs
      let nCol ← sumDims 2 subs
      let r ← placeBlocks subs (zeros [b, nRow, nCol], 0, 0)
      pure r.1
/-- the list comprehension of tests/jacobian_products.py:426 -/
def embedAll : List (PyVal ℝ) → Res (List (Tensor ℝ))
  | [] => .ok []
  | v :: vs => do
    let t ← embed v
    let ts ← embedAll vs
    pure (t :: ts)
end

/-- tests/jacobian_products.py:410-480; `tree` is the module structure of `layer` -/
noncomputable def jmjTpWeight (fromDiag toDiag : Bool) (tree : Tree) (layer : Mod ℝ) (x : Tensor ℝ) (randn : Draws) : Prog ℝ Unit := do
  if layer.nParams = 0 then pure ()
  else
    let b ← x.dim 0
    let j ← layer.jacobian x none .weight
    let j ← Prog.need j
    let tangent := if fromDiag then .tensor (randn 0 [b, layer.nParams]) else (generate randn b tree 0).1
    let slow ← (match fromDiag, toDiag with
      | false, false => do
        let m ← embed tangent
        einsum% "bij, bjk, bqk -> biq" [j, m, j]
      | false, true => do
        let m ← embed tangent
        einsum% "bij, bjk, bik -> bi" [j, m, j]
      | true, false => einsum% "bij, bj, bqj -> biq" [j, randn 0 [b, layer.nParams], j]
      | true, true => einsum% "bij, bj, bij -> bi" [j, randn 0 [b, layer.nParams], j] : Res _)
    let fast ← layer.jmjTp x none tangent .weight fromDiag toDiag false
    let fast ← Prog.need fast
    check fast slow

/-- tests/jacobian_products.py:500-535: with `from_diag=True` the drawn diagonal is replaced by ones (line 519) -/
noncomputable def jTmjpInput (fromDiag toDiag : Bool) (layer : Mod ℝ) (x : Tensor ℝ) (randn : Draws) : Prog ℝ Unit := do
  let output ← layer.call x
  let k := size output.shape.tail
  let b ← x.dim 0
  let j ← layer.jacobian x none .input
  let j ← Prog.need j
  let tangent := if fromDiag then ones [b, k] else randn 0 [b, k, k]
  let slow ← (match fromDiag, toDiag with
    | false, false => einsum% "bji, bjk, bkq -> biq" [j, tangent, j]
    | false, true => einsum% "bji, bjk, bki -> bi" [j, tangent, j]
    | true, false => einsum% "bji, bj, bjk -> bik" [j, tangent, j]
    | true, true => einsum% "bji, bj, bji -> bi" [j, tangent, j] : Res _)
  let fast ← layer.jTmjp x none (some tangent) .input fromDiag toDiag false
  let fast ← (fast.toTensor : Res _)
  check fast slow

mutual
/-- `get_shape_of_block_diagonal`, tests/jacobian_products.py:539-544 -/
def blockShape : PyVal ℝ → Res (Nat × Nat)
  | .none => .error .attribute
  | .tensor t => do
    let r ← t.dim 1
    let c ← t.dim 2
    pure (r, c)
  | .list vs => blockShapes vs
/-- the sums of tests/jacobian_products.py:541-542 -/
def blockShapes : List (PyVal ℝ) → Res (Nat × Nat)
  | [] => .ok (0, 0)
  | v :: vs => do
    let a ← blockShape v
    let as ← blockShapes vs
    pure (a.1 + as.1, a.2 + as.2)
end

/-- `is_close` in tests/jacobian_products.py:546-557: the Python value `True`, or a tensor holding a truth value -/
inductive Truth where
  | pyTrue
  | tensor (b : Bool)

/-- `if is_close` / `is_close and ...` (tests/jacobian_products.py:553) -/
def Truth.holds : Truth → Bool
  | .pyTrue => true
  | .tensor b => b

mutual
/-- `is_close_block_diagonal`, tests/jacobian_products.py:546-557 -/
noncomputable def closeBlocks : PyVal ℝ → Tensor ℝ → Res Truth
  | .none, _ => .error .type
  | .tensor t, m => do
    let c ← isCloseAll t m
    pure (.tensor c)
  | .list vs, m => closeAll vs m .pyTrue 0 0
/-- the loop of tests/jacobian_products.py:549-555 -/
noncomputable def closeAll : List (PyVal ℝ) → Tensor ℝ → Truth → Nat → Nat → Res Truth
  | [], _, acc, _, _ => .ok acc
  | v :: vs, m, acc, i, j => do
    let rc ← blockShape v
    let m1 ← m.slice 1 i (i + rc.1)
    let m2 ← m1.slice 2 j (j + rc.2)
    let acc ← if acc.holds then closeBlocks v m2 else pure acc
    closeAll vs m acc (i + rc.1) (j + rc.2)
end

/-- tests/jacobian_products.py:537-594; `.all()` on the Python value `True` is an AttributeError -/
noncomputable def jTmjpWeight (fromDiag toDiag : Bool) (layer : Mod ℝ) (x : Tensor ℝ) (randn : Draws) : Prog ℝ Unit := do
  if layer.nParams = 0 then pure ()
  else
    let output ← layer.call x
    let k := size output.shape.tail
    let b ← x.dim 0
    let j ← layer.jacobian x none .weight
    let j ← Prog.need j
    let tangent := randn 0 (if fromDiag then [b, k] else [b, k, k])
    let slow ← (match fromDiag, toDiag with
      | false, false => einsum% "bji, bjk, bkq -> biq" [j, tangent, j]
      | false, true => einsum% "bji, bjk, bki -> bi" [j, tangent, j]
      | true, false => einsum% "bji, bj, bjk -> bik" [j, tangent, j]
      | true, true => einsum% "bji, bj, bji -> bi" [j, tangent, j] : Res _)
    let fast ← layer.jTmjp x none (some tangent) .weight fromDiag toDiag false
    let c ← (closeBlocks fast slow : Res _)
    match c with
    | .pyTrue => Prog.throw .attribute
    | .tensor c => Prog.assert c

/-- The test functions for one layer and one input; the flags are `from_diag` and `to_diag`.
tests/jacobian_products.py:191-606. -/
inductive Test where
  | jvpInput | jvpWeight | vjpInput | vjpWeight | jmpInput | jmpWeight | mjpInput | mjpWeight
  | jmjTpInput (fromDiag toDiag : Bool)
  | jmjTpWeight (fromDiag toDiag : Bool)
  | jTmjpInput (fromDiag toDiag : Bool)
  | jTmjpWeight (fromDiag toDiag : Bool)

/-- one call in the loops, e.g. tests/jacobian_products.py:219-220; 120 is `n_columns`, `n_rows` (lines 281, 325) -/
noncomputable def Test.run (t : Test) (tree : Tree) (layer : Mod ℝ) (x : Tensor ℝ) (randn : Draws) : Prog ℝ Unit :=
  match t with
  | .jvpInput => Tests.jvpInput layer x randn
  | .jvpWeight => Tests.jvpWeight layer x randn
  | .vjpInput => Tests.vjpInput layer x randn
  | .vjpWeight => Tests.vjpWeight layer x randn
  | .jmpInput => Tests.jmpInput 120 layer x randn
  | .jmpWeight => Tests.jmpWeight 120 layer x randn
  | .mjpInput => Tests.mjpInput 120 layer x randn
  | .mjpWeight => Tests.mjpWeight 120 layer x randn
  | .jmjTpInput fd td => Tests.jmjTpInput fd td layer x randn
  | .jmjTpWeight fd td => Tests.jmjTpWeight fd td tree layer x randn
  | .jTmjpInput fd td => Tests.jTmjpInput fd td layer x randn
  | .jTmjpWeight fd td => Tests.jTmjpWeight fd td layer x randn

end Tests
end NNJ
