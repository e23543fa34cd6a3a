import Verif.Model.Basic

/-!
# nnj/linear.py

`W` is `self.weight` (shape `[out, in]`), `bias` is `self.bias` (`none` for `bias=False`),
`nParams` the attribute `_n_params` set in the constructor (linear.py:12).
-/

namespace NNJ
namespace Linear
open Tensor

variable {α : Type} [Zero α] [One α] [Add α] [Mul α]

/-- `nn.Linear.forward`.  Inherited at nnj/linear.py:9. -/
def forward (W : Tensor α) (bias : Option (Tensor α)) (x : Tensor α) : Res (Tensor α) :=
  Torch.linear x W bias

/-- `if val is None: val = self.forward(x)`.  nnj/linear.py:26-27, 54-55, 80-81, 106-107, 228-229. -/
def getVal (W : Tensor α) (bias : Option (Tensor α)) (x : Tensor α) (val : Option (Tensor α)) :
    Res (Tensor α) :=
  match val with
  | none => forward W bias x
  | some v => .ok v

/-- nnj/linear.py:15-33 -/
def jacobian (W : Tensor α) (bias : Option (Tensor α)) (x : Tensor α) (val : Option (Tensor α)) (wrt : Wrt) :
    Res (Option (Tensor α)) := do
  let (b, c1) ← x.dims2
  match wrt with
  | .input => do
    let w ← W.unsqueeze 0
    some <$> w.expandAt 0 b
  | .weight => do
    let val ← getVal W bias x val
    let c2 ← val.dim 1
    let outIdentity ← (ones [c2] : Tensor α).diagEmbed
    let j ← einsum% "bk,ij->bijk" [x, outIdentity]
    let jacobian ← j.reshape [b, c2, c2 * c1]
    match bias with
    | none => pure (some jacobian)
    | some _ => do
      let e ← outIdentity.unsqueeze 0
      let e ← e.expandAt 0 b
      some <$> cat2 jacobian e 2
  | .other => pure none

/-- nnj/linear.py:40-61 -/
def jvp (W : Tensor α) (bias : Option (Tensor α)) (nParams : Nat) (x : Tensor α) (val : Option (Tensor α))
    (vector : Tensor α) (wrt : Wrt) : Res (Option (Tensor α)) := do
  match wrt with
  | .input => some <$> einsum% "kj,bj->bk" [W, vector]
  | .weight => do
    let (b, c1) ← x.dims2
    let val ← getVal W bias x val
    let c2 ← val.dim 1
    let n ← vector.dim 1
    assertR (nParams = n)
    match bias with
    | none => do
      let v ← vector.reshape [b, c2, c1]
      some <$> einsum% "bkj,bj->bk" [v, x]
    | some _ => do
      let v ← vector.slice 1 0 (c2 * c1)
      let v ← v.reshape [b, c2, c1]
      let r ← einsum% "bkj,bj->bk" [v, x]
      let vb ← vector.slice 1 (c2 * c1) n
      some <$> r.add vb
  | .other => pure none

/-- nnj/linear.py:64-90 -/
def jmp (W : Tensor α) (bias : Option (Tensor α)) (nParams : Nat) (x : Tensor α) (val : Option (Tensor α))
    (matrix : Option (Tensor α)) (wrt : Wrt) : Res (Option (Tensor α)) := do
  match matrix with
  | none => jacobian W bias x val wrt
  | some matrix =>
    match wrt with
    | .input => some <$> einsum% "kj,bji->bki" [W, matrix]
    | .weight => do
      let (b, c1) ← x.dims2
      let val ← getVal W bias x val
      let c2 ← val.dim 1
      let n ← matrix.dim 1
      assertR (nParams = n)
      match bias with
      | none => do
        let m ← matrix.reshapeInfer [b, c2, c1] []
        some <$> einsum% "bkji,bj->bki" [m, x]
      | some _ => do
        let m ← matrix.slice 1 0 (c2 * c1)
        let m ← m.reshapeInfer [b, c2, c1] []
        let r ← einsum% "bkji,bj->bki" [m, x]
        let mb ← matrix.slice 1 (c2 * c1) n
        some <$> r.add mb
    | .other => pure none

/-- full -> full case of `jmjTp` wrt weight, nnj/linear.py:128-134 -/
def jmjTpWeightFull (W : Tensor α) (bias : Option (Tensor α)) (nParams : Nat) (x val matrix : Tensor α) :
    Res (Option (Tensor α)) := do
  let matrixT ← matrix.transpose12
  let jmTp ← needR (← jmp W bias nParams x (some val) (some matrixT) .weight)
  let mjTp ← jmTp.transpose12
  jmp W bias nParams x (some val) (some mjTp) .weight

/-- the vector `einsum("bi,bji->bj", x_sq, ...) (+ bias part)` of `jmjTp` wrt weight,
nnj/linear.py:137-147 and 154-164 -/
def jmjTpWeightDiag (bias : Option (Tensor α)) (x val matrix : Tensor α) : Res (Tensor α) := do
  let (bs, n) ← matrix.dims2
  let c1 ← x.dim 1
  let c2 ← val.dim 1
  let xsq ← x.mul x
  match bias with
  | none => do
    let m ← matrix.reshape [bs, c2, c1]
    einsum% "bi,bji->bj" [xsq, m]
  | some _ => do
    let m ← matrix.slice 1 0 (c2 * c1)
    let m ← m.reshape [bs, c2, c1]
    let r ← einsum% "bi,bji->bj" [xsq, m]
    let mb ← matrix.slice 1 (c2 * c1) n
    r.add mb

/-- nnj/linear.py:93-164 -/
def jmjTp (W : Tensor α) (bias : Option (Tensor α)) (nParams : Nat) (x : Tensor α) (val : Option (Tensor α))
    (matrix : Option (Tensor α)) (wrt : Wrt) (fromDiag toDiag _diagBackprop : Bool) :
    Res (Option (Tensor α)) := do
  let val ← getVal W bias x val
  match wrt with
  | .input =>
    let (matrix, fromDiag) := match matrix with
      | none => (onesLike x, true)
      | some m => (m, fromDiag)
    match fromDiag, toDiag with
    | false, false => some <$> einsum% "mn,bnj,kj->bmk" [W, matrix, W]
    | true, false => some <$> einsum% "mn,bn,kn->bmk" [W, matrix, W]
    | false, true => some <$> einsum% "mn,bnj,mj->bm" [W, matrix, W]
    | true, true => some <$> einsum% "mn,bn,mn->bm" [W, matrix, W]
  | .weight => do
    let (matrix, fromDiag) ← match matrix with
      | none => do
        let b ← x.dim 0
        pure (ones [b, nParams], true)
      | some m => pure (m, fromDiag)
    match fromDiag, toDiag with
    | false, false => jmjTpWeightFull W bias nParams x val matrix
    | true, false => do
      let d ← jmjTpWeightDiag bias x val matrix
      some <$> d.diagEmbed
    | false, true => do
      let r ← needR (← jmjTpWeightFull W bias nParams x val matrix)
      some <$> einsum% "bii -> bi" [r]
    | true, true => some <$> jmjTpWeightDiag bias x val matrix
  | .other => pure none

/-- nnj/linear.py:171-188 -/
def vjp (W : Tensor α) (bias : Option (Tensor α)) (x : Tensor α) (_val : Option (Tensor α))
    (vector : Tensor α) (wrt : Wrt) : Res (Option (Tensor α)) := do
  match wrt with
  | .input => some <$> einsum% "bj,jk->bk" [vector, W]
  | .weight => do
    let (b, _) ← x.dims2
    let o ← einsum% "bi,bj->bij" [vector, x]
    let o ← o.reshapeInfer [b] []
    match bias with
    | none => pure (some o)
    | some _ => some <$> cat2 o vector 1
  | .other => pure none

/-- nnj/linear.py:191-212 -/
def mjp (W : Tensor α) (bias : Option (Tensor α)) (x : Tensor α) (val : Option (Tensor α))
    (matrix : Option (Tensor α)) (wrt : Wrt) : Res (Option (Tensor α)) := do
  match matrix with
  | none => jacobian W bias x val wrt
  | some matrix =>
    match wrt with
    | .input => some <$> einsum% "bij,jk->bik" [matrix, W]
    | .weight => do
      let (b, _) ← x.dims2
      let r ← matrix.dim 1
      let b' ← matrix.dim 0
      assertR (b = b')
      let o ← einsum% "bri,bj->brij" [matrix, x]
      let o ← o.reshapeInfer [b, r] []
      match bias with
      | none => pure (some o)
      | some _ => some <$> cat2 o matrix 2
    | .other => pure none

/-- nnj/linear.py:215-294 -/
def jTmjp (W : Tensor α) (bias : Option (Tensor α)) (x : Tensor α) (val : Option (Tensor α))
    (matrix : Option (Tensor α)) (wrt : Wrt) (fromDiag toDiag _diagBackprop : Bool) :
    Res (Option (Tensor α)) := do
  let val ← getVal W bias x val
  let (matrix, fromDiag) := match matrix with
    | none => (onesLike val, true)
    | some m => (m, fromDiag)
  match wrt with
  | .input =>
    match fromDiag, toDiag with
    | false, false => some <$> einsum% "nm,bnj,jk->bmk" [W, matrix, W]
    | true, false => some <$> einsum% "nm,bn,nk->bmk" [W, matrix, W]
    | false, true => some <$> einsum% "nm,bnj,jm->bm" [W, matrix, W]
    | true, true => some <$> einsum% "nm,bn,nm->bm" [W, matrix, W]
  | .weight =>
    match fromDiag, toDiag with
    | false, false => do
      let matrixT ← matrix.transpose12
      let mTjp ← needR (← mjp W bias x (some val) (some matrixT) .weight)
      let jTmp ← mTjp.transpose12
      mjp W bias x (some val) (some jTmp) .weight
    | true, false => do
      let (bs, c1) ← x.dims2
      let c2 ← matrix.dim 1
      let xOuter ← einsum% "bi,bj->bij" [x, x]
      let matrix ← matrix.diagEmbed
      match bias with
      | none => do
        let r ← einsum% "bij,bkq->bkiqj" [xOuter, matrix]
        some <$> r.reshape [bs, c1 * c2, c1 * c2]
      | some _ => do
        let r ← einsum% "bij,bkq->bkiqj" [xOuter, matrix]
        let firstBlock ← r.reshape [bs, c1 * c2, c1 * c2]
        let o ← einsum% "bi,bjk->bjik" [x, matrix]
        let outerDiagBlock ← o.reshape [bs, c1 * c2, c2]
        let top ← cat2 firstBlock outerDiagBlock 2
        let ot ← outerDiagBlock.transpose12
        let bot ← cat2 ot matrix 2
        some <$> cat2 top bot 1
    | false, true => do
      let bs ← match matrix.shape with
        | [bs, _, _] => .ok bs
        | _ => .error .value
      let xsq ← x.mul x
      let r ← einsum% "bj,bii->bij" [xsq, matrix]
      let r ← r.reshapeInfer [bs] []
      match bias with
      | none => pure (some r)
      | some _ => do
        let d ← einsum% "bii->bi" [matrix]
        some <$> cat2 r d 1
    | true, true => do
      let (bs, _) ← matrix.dims2
      let xsq ← x.mul x
      let r ← einsum% "bj,bi->bij" [xsq, matrix]
      let r ← r.reshapeInfer [bs] []
      match bias with
      | none => pure (some r)
      | some _ => some <$> cat2 r matrix 1
  | .other => pure none

/-- The methods of one `nnj.Linear` for given parameter values.  nnj/linear.py:9-294. -/
def layer (W : Tensor α) (bias : Option (Tensor α)) (nParams : Nat) : PureLayer α where
  forward := forward W bias
  jacobian := jacobian W bias
  jvp := jvp W bias nParams
  jmp := jmp W bias nParams
  jmjTp := jmjTp W bias nParams
  vjp := vjp W bias
  mjp := mjp W bias
  jTmjp := jTmjp W bias

/-- The object `nnj.Linear(in_features, out_features, bias=...)` (linear.py:10-12): parameters `wId`
and, with a bias, `bId`. -/
def mod (id wId : Nat) (bId : Option Nat) (inF outF : Nat) : Mod α :=
  let nParams := outF * inF + (match bId with | some _ => outF | none => 0)
  PureLayer.toMod (fun s => layer (s.param wId) (bId.map s.param) nParams) id nParams
    (wId :: bId.toList)

end Linear
end NNJ
