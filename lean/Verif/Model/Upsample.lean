import Verif.Model.Basic

/-!
# nnj/upsample.py

`nnj.Upsample(scale_factor=num/den)` with `mode="nearest"` (torch's default).  `int(scale_factor)`
is `num / den` rounded down.
-/

namespace NNJ
namespace Upsample
open Tensor

variable {α : Type} [Zero α] [One α] [Add α] [Mul α]

/-- The scale factor `num / den`.  Read at nnj/upsample.py:136. -/
structure Scale where
  num : Nat
  den : Nat := 1

/-- `int(self.scale_factor)`.  nnj/upsample.py:136, 142, 175, 181, 222, 230, 242, 271, 277. -/
def Scale.int (f : Scale) : Nat := f.num / f.den

/-- `nn.Upsample.forward`.  Inherited at nnj/upsample.py:10. -/
def forward (f : Scale) (x : Tensor α) : Res (Tensor α) := Torch.upsampleNearest x f.num f.den

/-- `if val is None: val = self.forward(x)`, nnj/upsample.py:24-25, 91-92, 129-130, 167-168, 206-207 -/
def getVal (f : Scale) (x : Tensor α) (val : Option (Tensor α)) : Res (Tensor α) :=
  match val with
  | none => forward f x
  | some v => .ok v

/-- The convolution of nnj/upsample.py:136-146 (also 175-185, 222-234, 238-246, 271-281): the images,
one per row, are summed over disjoint `s × s` squares. -/
def pool (f : Scale) (t : Tensor α) (rows h2 w2 : Nat) : Res (Tensor α) := do
  let weight : Tensor α := ones [1, 1, f.int, f.int]
  let t ← t.reshape [rows, 1, h2, w2]
  Torch.conv2d t weight none { stride := (f.int, f.int), padding := (0, 0), dilation := (1, 1), groups := 1 }

/-- nnj/upsample.py:118-151 -/
def vjp (f : Scale) (x : Tensor α) (val : Option (Tensor α)) (vector : Tensor α) (wrt : Wrt) :
    Res (Option (Tensor α)) := do
  match wrt with
  | .input => do
    let val ← getVal f x val
    let (b, c1, h1, w1) ← x.dims4
    let (_, c2, h2, w2) ← val.dims4
    assertR (c1 = c2)
    assertR (vector.shape = [b, c2 * h2 * w2])
    let r ← pool f vector (b * c2) h2 w2
    some <$> r.reshape [b, c1 * h1 * w1]
  | _ => pure none

/-- nnj/upsample.py:154-190 for a given matrix -/
def mjpSome (f : Scale) (x : Tensor α) (val : Option (Tensor α)) (matrix : Tensor α) (wrt : Wrt) :
    Res (Option (Tensor α)) := do
  match wrt with
  | .input => do
    let val ← getVal f x val
    let (b, c1, h1, w1) ← x.dims4
    let (_, c2, h2, w2) ← val.dims4
    assertR (c1 = c2)
    let m0 ← matrix.dim 0
    let m2 ← matrix.dim 2
    assertR (m0 = b ∧ m2 = c2 * h2 * w2)
    let nRows ← matrix.dim 1
    let r ← pool f matrix (b * nRows * c2) h2 w2
    some <$> r.reshape [b, nRows, c2 * h1 * w1]
  | _ => pure none

/-- nnj/upsample.py:16-35 -/
def jacobian (f : Scale) (x : Tensor α) (val : Option (Tensor α)) (wrt : Wrt) : Res (Option (Tensor α)) := do
  match wrt with
  | .input => do
    let val ← getVal f x val
    let (b, c1, _, _) ← x.dims4
    let (_, c2, h2, w2) ← val.dims4
    assertR (c1 = c2)
    let identity ← (ones [b, c2 * h2 * w2] : Tensor α).diagEmbed
    mjpSome f x (some val) identity .input
  | _ => pure none

/-- nnj/upsample.py:154-190 -/
def mjp (f : Scale) (x : Tensor α) (val : Option (Tensor α)) (matrix : Option (Tensor α)) (wrt : Wrt) :
    Res (Option (Tensor α)) :=
  match matrix with
  | none => jacobian f x val wrt
  | some m => mjpSome f x val m wrt

/-- nnj/upsample.py:42-56 -/
def jvp (_x : Tensor α) (_val : Option (Tensor α)) (_vector : Tensor α) (wrt : Wrt) : Res (Option (Tensor α)) :=
  match wrt with
  | .input => .error .notImplemented
  | _ => .ok none

/-- nnj/upsample.py:59-75 -/
def jmp (f : Scale) (x : Tensor α) (val : Option (Tensor α)) (matrix : Option (Tensor α)) (wrt : Wrt) :
    Res (Option (Tensor α)) :=
  match matrix with
  | none => jacobian f x val wrt
  | some _ =>
    match wrt with
    | .input => .error .notImplemented
    | _ => .ok none

/-- nnj/upsample.py:78-111: all four flag combinations raise. -/
def jmjTp (f : Scale) (x : Tensor α) (val : Option (Tensor α)) (_matrix : Option (Tensor α)) (wrt : Wrt)
    (_fromDiag _toDiag _diagBackprop : Bool) : Res (Option (Tensor α)) := do
  let _ ← getVal f x val
  match wrt with
  | .input => .error .notImplemented
  | _ => pure none

/-- full -> full case, nnj/upsample.py:219-254 -/
def jTmjpFull (f : Scale) (b c2 h1 w1 h2 w2 : Nat) (matrix : Tensor α) : Res (Tensor α) := do
  let matrix ← matrix.reshape [b, c2, h2 * w2, c2, h2 * w2]
  let matrix ← matrix.movedim [2] [3]
  let matrixJ ← pool f matrix (b * c2 * c2 * h2 * w2) h2 w2
  let matrixJ ← matrixJ.reshape [b * c2 * c2, h2 * w2, h1 * w1]
  let jtMatrixt ← matrixJ.movedim [-1] [-2]
  let r ← pool f jtMatrixt (b * c2 * c2 * h1 * w1) h2 w2
  let r ← r.reshape [b * c2 * c2, h1 * w1, h1 * w1]
  let r ← r.movedim [-1] [-2]
  let r ← r.reshape [b, c2, c2, h1 * w1, h1 * w1]
  let r ← r.movedim [2] [3]
  r.reshape [b, c2 * h1 * w1, c2 * h1 * w1]

/-- nnj/upsample.py:193-286.  The recursive calls (lines 259, 265) repeat the shape assertion on
the embedded matrix, which `jTmjpFull`'s first `reshape` also implies. -/
def jTmjp (f : Scale) (x : Tensor α) (val : Option (Tensor α)) (matrix : Option (Tensor α)) (wrt : Wrt)
    (fromDiag toDiag _diagBackprop : Bool) : Res (Option (Tensor α)) := do
  let val ← getVal f x val
  let (b, c1, h1, w1) ← x.dims4
  let (_, c2, h2, w2) ← val.dims4
  assertR (c1 = c2)
  let (matrix, fromDiag) ← match matrix with
    | none => do pure (← (onesLike val).reshapeInfer [b] [], true)
    | some m => pure (m, fromDiag)
  if fromDiag then assertR (matrix.shape = [b, c2 * h2 * w2])
  else assertR (matrix.shape = [b, c2 * h2 * w2, c2 * h2 * w2])
  match wrt with
  | .input =>
    match fromDiag, toDiag with
    | false, false => some <$> jTmjpFull f b c2 h1 w1 h2 w2 matrix
    | true, false => do
      let m ← matrix.diagEmbed
      some <$> jTmjpFull f b c2 h1 w1 h2 w2 m
    | false, true => do
      let r ← jTmjpFull f b c2 h1 w1 h2 w2 matrix
      some <$> r.diagonal12
    | true, true => do
      let r ← pool f matrix (b * c2) h2 w2
      some <$> r.reshape [b, c1 * h1 * w1]
  | _ => pure none

/-- The methods of one `nnj.Upsample`, nnj/upsample.py:10-286 -/
def layer (f : Scale) : PureLayer α where
  forward := forward f
  jacobian := jacobian f
  jvp := jvp
  jmp := jmp f
  jmjTp := jmjTp f
  vjp := vjp f
  mjp := mjp f
  jTmjp := jTmjp f

/-- `nnj.Upsample(scale_factor=f)` as a module object, nnj/upsample.py:11-13 -/
def mod (f : Scale) (id : Nat) : Mod α := PureLayer.toMod (fun _ => layer f) id 0 []

end Upsample
end NNJ
