import Verif.Model.Basic

/-!
# nnj/maxpool2d.py

`forward` stores the indices of the maxima in the attribute `idx`; the products read that
attribute (when `val` is given they do not recompute it).
-/

namespace NNJ
namespace MaxPool2d
open Tensor

variable {α : Type} [Zero α] [One α] [Add α] [Mul α] [LT α] [DecidableLT α]

/-- nnj/maxpool2d.py:16-27 -/
def forward (id : Nat) (a : Torch.PoolArgs) (x : Tensor α) : Prog α (Tensor α) := do
  let (val, idx) ← (Torch.maxPool2d x a : Res _)
  Prog.modify fun s => { s with pidx := fun j => if j = id then some idx else s.pidx j }
  pure val

/-- `if val is None: val = self.forward(x)`.  nnj/maxpool2d.py:38-39, 91-92, 123-124, 161-162, 198-199, 237-238. -/
def getVal (id : Nat) (a : Torch.PoolArgs) (x : Tensor α) (val : Option (Tensor α)) : Prog α (Tensor α) :=
  match val with
  | none => forward id a x
  | some v => pure v

/-- `self.idx.<method>`: AttributeError while it is still `None` (maxpool2d.py:14). -/
def getIdx (id : Nat) : Prog α (Tensor Nat) := fun s =>
  match s.pidx id with
  | some i => (.ok i, s)
  | none => (.error .attribute, s)

/-- body of `jmp` wrt input once `val` and `idx` are known, nnj/maxpool2d.py:93-104 -/
def jmpBody (x val matrix : Tensor α) (idx : Tensor Nat) : Res (Tensor α) := do
  let (b, c1, h1, w1) ← x.dims4
  let (_, c2, h2, w2) ← val.dims4
  let m0 ← matrix.dim 0
  assertR (m0 = b)
  let m1 ← matrix.dim 1
  assertR (m1 = c1 * h1 * w1)
  let m ← matrix.reshape [b * c1, h1 * w1, c1, h1, w1]
  let ar ← (arange (b * c1)).repeatInterleave (h2 * w2)
  let idx ← idx.reshapeInfer [] []
  let m ← m.indexGet2 ar idx
  let m ← m.reshape (val.shape ++ [c1, h1, w1])
  let m2 ← matrix.dim 2
  m.reshape [b, c2 * h2 * w2, m2]

/-- nnj/maxpool2d.py:78-107 for a given matrix -/
def jmpSome (id : Nat) (a : Torch.PoolArgs) (x : Tensor α) (val : Option (Tensor α)) (matrix : Tensor α)
    (wrt : Wrt) : Prog α (Option (Tensor α)) := do
  match wrt with
  | .input => do
    let val ← getVal id a x val
    let idx ← getIdx id
    let r ← (jmpBody x val matrix idx : Res _)
    pure (some r)
  | _ => pure none

/-- nnj/maxpool2d.py:30-54 -/
def jacobian (id : Nat) (a : Torch.PoolArgs) (x : Tensor α) (val : Option (Tensor α)) (wrt : Wrt) :
    Prog α (Option (Tensor α)) := do
  match wrt with
  | .input => do
    let val ← getVal id a x val
    let (b, c1, h1, w1) ← (x.dims4 : Res _)
    let (_, c2, _, _) ← (val.dims4 : Res _)
    Prog.assert (c1 = c2)
    let identity ← ((ones [b, c1 * h1 * w1] : Tensor α).diagEmbed : Res _)
    jmpSome id a x (some val) identity .input
  | _ => pure none

/-- nnj/maxpool2d.py:78-107 -/
def jmp (id : Nat) (a : Torch.PoolArgs) (x : Tensor α) (val : Option (Tensor α)) (matrix : Option (Tensor α))
    (wrt : Wrt) : Prog α (Option (Tensor α)) :=
  match matrix with
  | none => jacobian id a x val wrt
  | some m => jmpSome id a x val m wrt

/-- nnj/maxpool2d.py:61-75 -/
def jvp (_x : Tensor α) (_val : Option (Tensor α)) (_vector : Tensor α) (wrt : Wrt) :
    Prog α (Option (Tensor α)) :=
  match wrt with
  | .input => Prog.throw .notImplemented
  | _ => pure none

/-- nnj/maxpool2d.py:110-143: all four flag combinations raise. -/
def jmjTp (id : Nat) (a : Torch.PoolArgs) (x : Tensor α) (val : Option (Tensor α)) (_matrix : PyVal α)
    (wrt : Wrt) (_fromDiag _toDiag _diagBackprop : Bool) : Prog α (Option (Tensor α)) := do
  let _ ← getVal id a x val
  match wrt with
  | .input => Prog.throw .notImplemented
  | _ => pure none

/-- body of `vjp` wrt input, nnj/maxpool2d.py:163-179 -/
def vjpBody (x val vector : Tensor α) (idx : Tensor Nat) : Res (Tensor α) := do
  let (b, c1, h1, w1) ← x.dims4
  let (_, c2, h2, w2) ← val.dims4
  assertR (c1 = c2)
  assertR (vector.shape = [b, c2 * h2 * w2])
  let vector ← vector.reshape [b * c2, h2 * w2]
  let ar ← (arange (b * c2)).repeatInterleave (h2 * w2)
  let ar ← ar.reshape [b * c2, h2 * w2]
  let idx ← idx.reshape [b * c2, h2 * w2]
  let r ← (zeros [b * c2, h1 * w1] : Tensor α).indexPut [ar, idx] vector
  r.reshape [b, c1 * h1 * w1]

/-- nnj/maxpool2d.py:150-182 -/
def vjp (id : Nat) (a : Torch.PoolArgs) (x : Tensor α) (val : Option (Tensor α)) (vector : Tensor α)
    (wrt : Wrt) : Prog α (Option (Tensor α)) := do
  match wrt with
  | .input => do
    let val ← getVal id a x val
    let idx ← getIdx id
    let r ← (vjpBody x val vector idx : Res _)
    pure (some r)
  | _ => pure none

/-- body of `mjp` wrt input, nnj/maxpool2d.py:200-218 -/
def mjpBody (x val matrix : Tensor α) (idx : Tensor Nat) : Res (Tensor α) := do
  let (b, c1, h1, w1) ← x.dims4
  let (_, c2, h2, w2) ← val.dims4
  assertR (c1 = c2)
  let m0 ← matrix.dim 0
  let m2 ← matrix.dim 2
  assertR (m0 = b ∧ m2 = c2 * h2 * w2)
  let nRows ← matrix.dim 1
  let matrix ← matrix.reshape [b * nRows * c2, h2 * w2]
  let ar ← (arange (b * nRows * c2)).repeatInterleave (h2 * w2)
  let ar ← ar.reshape [b * nRows * c2, h2 * w2]
  let idx ← idx.reshape [b, c2, h2 * w2]
  let idx ← idx.unsqueeze 1
  let idx ← idx.expandAt 1 nRows
  let idx ← idx.reshape [b * nRows * c2, h2 * w2]
  let r ← (zeros [b * nRows * c1, h1 * w1] : Tensor α).indexPut [ar, idx] matrix
  r.reshape [b, nRows, c1 * h1 * w1]

/-- nnj/maxpool2d.py:185-221 -/
def mjp (id : Nat) (a : Torch.PoolArgs) (x : Tensor α) (val : Option (Tensor α)) (matrix : Option (Tensor α))
    (wrt : Wrt) : Prog α (Option (Tensor α)) :=
  match matrix with
  | none => jacobian id a x val wrt
  | some matrix =>
    match wrt with
    | .input => do
      let val ← getVal id a x val
      let idx ← getIdx id
      let r ← (mjpBody x val matrix idx : Res _)
      pure (some r)
    | _ => pure none

/-- full -> full case, nnj/maxpool2d.py:250-273 -/
def jTmjpFull (b c1 h1 w1 h2 w2 : Nat) (matrix : Tensor α) (idx0 : Tensor Nat) : Res (Tensor α) := do
  let matrix ← matrix.reshape [b, c1, h2 * w2, c1, h2 * w2]
  let matrix ← matrix.movedim [-2] [-3]
  let matrix ← matrix.reshape [b * c1 * c1, h2 * w2, h2 * w2]
  let ar ← (arange (b * c1 * c1)).repeatInterleave (h2 * w2 * h2 * w2)
  let ar ← ar.reshape [b * c1 * c1, h2 * w2, h2 * w2]
  let idx ← idx0.reshape [b, c1, h2 * w2]
  let idx ← idx.unsqueeze 2
  let idx ← idx.expandAt 2 (h2 * w2)
  let idxCol ← idx.unsqueeze 1
  let idxCol ← idxCol.expandAt 1 c1
  let idxCol ← idxCol.reshape [b * c1 * c1, h2 * w2, h2 * w2]
  let idxRow ← idx.unsqueeze 2
  let idxRow ← idxRow.expandAt 2 c1
  let idxRow ← idxRow.reshape [b * c1 * c1, h2 * w2, h2 * w2]
  let idxRow ← idxRow.movedim [-1] [-2]
  let r ← (zeros [b * c1 * c1, h1 * w1, h1 * w1] : Tensor α).indexPut [ar, idxRow, idxCol] matrix
  let r ← r.reshape [b, c1, c1, h1 * w1, h1 * w1]
  let r ← r.movedim [-2] [-3]
  r.reshape [b, c1 * h1 * w1, c1 * h1 * w1]

/-- diag -> diag case, nnj/maxpool2d.py:288-301 -/
def jTmjpDiag (b c1 h1 w1 c2 h2 w2 : Nat) (x matrix : Tensor α) (idx0 : Tensor Nat) : Res (Tensor α) := do
  let ar ← (arange (b * c1)).repeatInterleave (h2 * w2)
  let ar ← ar.reshape [b * c2, h2 * w2]
  let idx ← idx0.reshape [b * c2, h2 * w2]
  let z ← (zerosLike x).reshape [b * c1, h1 * w1]
  let m ← matrix.reshape [b * c2, h2 * w2]
  let r ← z.indexPut [ar, idx] m
  r.reshape [b, c1 * h1 * w1]

/-- nnj/maxpool2d.py:224-304 -/
def jTmjp (id : Nat) (a : Torch.PoolArgs) (x : Tensor α) (val : Option (Tensor α)) (matrix : Option (Tensor α))
    (wrt : Wrt) (fromDiag toDiag _diagBackprop : Bool) : Prog α (PyVal α) := do
  let val ← getVal id a x val
  let (b, c1, h1, w1) ← (x.dims4 : Res _)
  let (_, c2, h2, w2) ← (val.dims4 : Res _)
  Prog.assert (c1 = c2)
  let (matrix, fromDiag) ← (match matrix with
    | none => do pure (← (onesLike val).reshapeInfer [b] [], true)
    | some m => pure (m, fromDiag) : Res _)
  if fromDiag then Prog.assert (matrix.shape = [b, c2 * h2 * w2])
  else Prog.assert (matrix.shape = [b, c2 * h2 * w2, c2 * h2 * w2])
  match wrt with
  | .input => do
    let idx ← getIdx id
    let r ← ((match fromDiag, toDiag with
      | false, false => jTmjpFull b c1 h1 w1 h2 w2 matrix idx
      | true, false => do
        let m ← matrix.diagEmbed
        jTmjpFull b c1 h1 w1 h2 w2 m idx
      | false, true => do
        let r ← jTmjpFull b c1 h1 w1 h2 w2 matrix idx
        r.diagonal12
      | true, true => jTmjpDiag b c1 h1 w1 c2 h2 w2 x matrix idx) : Res _)
    pure (.tensor r)
  | _ => pure .none

/-- `nnj.MaxPool2d(...)` (maxpool2d.py:10-14) -/
def mod (a : Torch.PoolArgs) (id : Nat) : Mod α where
  id := id
  nParams := 0
  params := []
  forward := forward id a
  jacobian := jacobian id a
  jvp := jvp
  jmp := jmp id a
  jmjTp := jmjTp id a
  vjp := vjp id a
  mjp := mjp id a
  jTmjp := jTmjp id a

end MaxPool2d
end NNJ
