import Verif.Model.Sequential

/-!
# Operations `nnj.Sequential` inherits from `torch.nn.Sequential`

nnj/sequential.py:9 derives from `nn.Sequential` and redefines neither indexing nor `append`, `insert`, `__setitem__`.
-/

namespace NNJ
namespace Sequential
open Tensor

variable {α : Type} [Zero α] [One α] [Add α]

/-- `model[a:b]`: `nn.Sequential.__getitem__` returns `self.__class__(OrderedDict(list(self._modules.items())[a:b]))`, i.e. it
runs the constructor nnj/sequential.py:10-28 on the same layer objects (with `add_hooks=True`, the default, whatever the flag of
the model).  `newId` is the new object. -/
def getSlice (newId : Nat) (ms : List (Mod α)) (a b : Nat) : Prog α (Mod α) :=
  init newId ((ms.drop a).take (b - a))

/-! ### Editing a model in place

`append`, `insert`, `extend` and `model[k] = layer` change `self._modules` only.  `self._modules_list`, `self._n_params` and the
hooks stay as the constructor made them (nnj/sequential.py:12-28).  Below `ms` is `self._modules.values()`, `ml` is
`self._modules_list` and `np` is `self._n_params`; with `ml = ms` and `np = nParams ms` these are the methods of
`Verif/Model/Sequential.lean`. -/

/-- nnj/sequential.py:48-82: the loops run over `_modules`, the assertion of line 81 compares with `_n_params` -/
def jvpE (ms : List (Mod α)) (np : Nat) (x : Tensor α) (_val : Option (Tensor α)) (vector : Tensor α) (wrt : Wrt) :
    Prog α (Option (Tensor α)) := do
  Prog.assert (wrt = .input ∨ wrt = .weight)
  match wrt with
  | .input => do
    let r ← jvpInput ms x vector
    pure (some r)
  | .weight => do
    let (r, p) ← jvpWeight vector ms x 0 none
    Prog.assert (p = np)
    pure r
  | .other => pure none

/-- nnj/sequential.py:218-250: `forward` (line 233) runs `_modules`, the loop (line 237) `_modules_list` -/
def vjpE (id : Nat) (addHooks : Bool) (ms ml : List (Mod α)) (x : Tensor α) (val : Option (Tensor α))
    (vector : Tensor α) (wrt : Wrt) : Prog α (Option (Tensor α)) := do
  Prog.assert (wrt = .input ∨ wrt = .weight)
  let _ ← getVal id addHooks ms x val
  match wrt with
  | .input => do
    let r ← vjpInput id ml ml.length vector
    pure (some r)
  | .weight => do
    let vs ← vjpWeight id ml ml.length vector []
    (catOrNone 1 vs : Res _)
  | .other => pure none

/-- nnj/sequential.py:253-287: `forward` (line 268) runs `_modules`, the loop (line 274) `_modules_list` -/
def mjpE (id : Nat) (addHooks : Bool) (ms ml : List (Mod α)) (x : Tensor α)
    (val : Option (Tensor α)) (matrix : Option (Tensor α)) (wrt : Wrt) : Prog α (Option (Tensor α)) := do
  Prog.assert (wrt = .input ∨ wrt = .weight)
  let val ← getVal id addHooks ms x val
  let matrix ← (match matrix with
    | none => eyeFor val
    | some m => .ok m : Res _)
  match wrt with
  | .input => do
    let r ← mjpInput id ml ml.length matrix
    pure (some r)
  | .weight => do
    let acc ← mjpWeight id ml ml.length matrix []
    (catOrNone 2 acc : Res _)
  | .other => pure none

/-- nnj/sequential.py:85-121: the loops run over `_modules`, the assertion of line 120 compares with `_n_params` -/
def jmpE (id : Nat) (addHooks : Bool) (ms ml : List (Mod α)) (np : Nat) (x : Tensor α)
    (val : Option (Tensor α)) (matrix : Option (Tensor α)) (wrt : Wrt) : Prog α (Option (Tensor α)) := do
  Prog.assert (wrt = .input ∨ wrt = .weight)
  match matrix with
  | none => mjpE id addHooks ms ml x val none wrt
  | some matrix =>
    match wrt with
    | .input => do
      let r ← jmpInput ms x matrix
      pure (some r)
    | .weight => do
      let (r, p) ← jmpWeight matrix ms x 0 none
      Prog.assert (p = np)
      pure r
    | .other => pure none

/-- nnj/sequential.py:124-211: `forward` (line 142) runs `_modules`, everything else uses `_modules_list` and `_n_params` -/
def jmjTpE (id : Nat) (addHooks : Bool) (ms ml : List (Mod α)) (np : Nat) (x : Tensor α)
    (val : Option (Tensor α)) (matrix : PyVal α) (wrt : Wrt) (fromDiag toDiag db : Bool) :
    Prog α (Option (Tensor α)) := do
  Prog.assert ((!db) || (db && fromDiag && toDiag))
  let _ ← getVal id addHooks ms x val
  match wrt with
  | .input => do
    let (matrix, fromDiag) := match matrix with
      | .none => (PyVal.tensor (onesLike x), true)
      | m => (m, fromDiag)
    let r ← jmjTpInput id ml.length fromDiag toDiag db ml 0 matrix
    (r.toOption : Res _)
  | .weight => do
    let (matrix, fromDiag) ← (match matrix with
      | .none => do
        let b ← x.dim 0
        pure (PyVal.tensor (ones [b, np]), true)
      | m => pure (m, fromDiag) : Res (PyVal α × Bool))
    let blocks ← match matrix with
      | .list vs => pure vs
      | .tensor t => do
        let (vs, p) ← (splitBlocks t fromDiag ml 0 : Res _)
        Prog.assert (p = np)
        pure vs
      | .none => Prog.throw .type
    jmjTpWeight id ml.length fromDiag toDiag db blocks ml 0 0 none
  | .other => pure none

/-- nnj/sequential.py:290-347: `forward` (line 306) runs `_modules`, the loop (line 312) `_modules_list` -/
def jTmjpE (id : Nat) (addHooks : Bool) (ms ml : List (Mod α)) (x : Tensor α)
    (val : Option (Tensor α)) (matrix : Option (Tensor α)) (wrt : Wrt) (fromDiag toDiag db : Bool) :
    Prog α (PyVal α) := do
  Prog.assert ((!db) || (db && fromDiag && toDiag))
  let val ← getVal id addHooks ms x val
  let (matrix, fromDiag) ← (match matrix with
    | none =>
      match val.shape with
      | [] => .error .index
      | b :: s => .ok (ones [b, size s], true)
    | some m => .ok (m, fromDiag) : Res (Tensor α × Bool))
  match wrt with
  | .input => do
    let r ← jTmjpInput id ml.length ml fromDiag toDiag db ml.length (some matrix)
    pure (PyVal.ofOption r)
  | .weight => do
    let acc ← jTmjpWeight id ml.length ml fromDiag toDiag db ml.length (some matrix) []
    if acc.length = 0 then pure .none
    else if toDiag then do
      let ts ← (acc.mapM PyVal.toTensor : Res _)
      let r ← (Tensor.cat 1 ts : Res _)
      pure (.tensor r)
    else pure (.list acc)
  | .other => do
    let _ ← jTmjpInput id ml.length ml fromDiag toDiag db ml.length (some matrix)
    pure .none

/-- A Sequential object whose `_modules` have been edited (nnj/sequential.py:9-347); `parameters()` follows `_modules`. -/
def edited (id : Nat) (addHooks : Bool) (ms ml : List (Mod α)) (np : Nat) : Mod α where
  id := id
  nParams := np
  params := (ms.map Mod.params).flatten
  forward := forward id addHooks ms
  jacobian := fun x val wrt => mjpE id addHooks ms ml x val none wrt
  jvp := jvpE ms np
  jmp := jmpE id addHooks ms ml np
  jmjTp := jmjTpE id addHooks ms ml np
  vjp := vjpE id addHooks ms ml
  mjp := mjpE id addHooks ms ml
  jTmjp := jTmjpE id addHooks ms ml

/-- `Sequential(*ms)` after `model.append(m)`: `nn.Sequential.append` calls `self.add_module(str(len(self)), m)` and nothing of
nnj/sequential.py:10-28 is redone; the state does not change. -/
def append (id : Nat) (ms : List (Mod α)) (m : Mod α) : Mod α := edited id true (ms ++ [m]) ms (nParams ms)

/-- `Sequential(*ms)` after `model[k] = m` with `0 ≤ k < len(model)`: `nn.Sequential.__setitem__` sets the attribute of that name
in `_modules`; nothing of nnj/sequential.py:10-28 is redone. -/
def setItem (id : Nat) (ms : List (Mod α)) (k : Nat) (m : Mod α) : Mod α := edited id true (ms.set k m) ms (nParams ms)

end Sequential
end NNJ
