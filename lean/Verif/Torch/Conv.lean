import Verif.Torch.Tensor

/-!
# Spatial primitives: `F.linear`, `F.conv2d`, `F.conv_transpose2d`, `F.max_pool2d`,
nearest-neighbour `nn.Upsample`

Only 4-dimensional inputs `(N, C, H, W)` (torch also accepts unbatched 3-dimensional ones).
-/

namespace NNJ
namespace Torch
open Tensor

variable {α : Type}

/-- `F.linear(x, W, b)`: last dimension of `x` contracted with the second of `W`.
The forward pass inherited at nnj/linear.py:9. -/
def linear [Zero α] [Add α] [Mul α] (x W : Tensor α) (b : Option (Tensor α)) : Res (Tensor α) :=
  match x.shape.getLast?, W.shape with
  | some n, [c2, c1] =>
    if n = c1 then
      let dot := fun k => sumRange c1 fun j => x.data ((k / c2) * c1 + j) * W.data ((k % c2) * c1 + j)
      match b with
      | none => .ok ⟨x.shape.dropLast ++ [c2], dot⟩
      | some b =>
        if b.shape = [c2] then .ok ⟨x.shape.dropLast ++ [c2], fun k => dot k + b.data (k % c2)⟩
        else .error .shape
    else .error .shape
  | _, _ => .error .shape

/-- Hyper-parameters of a convolution; the padding is an integer because nnj computes
`kernel_size - 1 - padding`, which may be negative (torch then raises).  nnj/conv2d.py:33-35, 209-212. -/
structure ConvArgs where
  stride : Nat × Nat := (1, 1)
  padding : Int × Int := (0, 0)
  dilation : Nat × Nat := (1, 1)
  groups : Nat := 1

/-- entry of the zero-padded image `img` (size `h × w`) at integer coordinates.
Zero padding of the convolutions, e.g. nnj/conv2d.py:205. -/
def padGet [Zero α] (h w : Nat) (img : Nat → Nat → α) (y x : Int) : α :=
  if 0 ≤ y ∧ y < h ∧ 0 ≤ x ∧ x < w then img y.toNat x.toNat else 0

/-- output length of a convolution along one axis.  For `F.conv2d`, e.g. nnj/conv2d.py:205. -/
def convLen (h k s : Nat) (p : Int) (d : Nat) : Int :=
  ((h : Int) + 2 * p - (d : Int) * ((k : Int) - 1) - 1) / (s : Int) + 1

/-- `F.conv2d(input, weight, bias, stride, padding, dilation, groups)`.
Called at nnj/conv2d.py:205, 229, 310, 340, 454, 482, 521, 549, 606, 637 and nnj/upsample.py:138, 177, 226, 238, 273. -/
def conv2d [Zero α] [Add α] [Mul α] (x W : Tensor α) (b : Option (Tensor α)) (a : ConvArgs) :
    Res (Tensor α) :=
  match x.shape, W.shape with
  | [n, ci, h, w], [co, cg, kh, kw] =>
    if a.padding.1 < 0 ∨ a.padding.2 < 0 then .error .shape
    else if a.groups = 0 ∨ a.stride.1 = 0 ∨ a.stride.2 = 0 ∨ a.dilation.1 = 0 ∨ a.dilation.2 = 0 then
      .error .shape
    else if ¬ (cg * a.groups = ci ∧ co % a.groups = 0) then .error .shape
    else if (match b with | none => false | some b => decide (b.shape ≠ [co])) then .error .shape
    else
      let oh := convLen h kh a.stride.1 a.padding.1 a.dilation.1
      let ow := convLen w kw a.stride.2 a.padding.2 a.dilation.2
      if oh ≤ 0 ∨ ow ≤ 0 then .error .shape
      else
        .ok (ofFn [n, co, oh.toNat, ow.toNat] fun idx =>
          let bi := idx.getD 0 0
          let o := idx.getD 1 0
          let y := idx.getD 2 0
          let z := idx.getD 3 0
          let g := o / (co / a.groups)
          let acc := sumRange cg fun c => sumRange kh fun i => sumRange kw fun j =>
            padGet h w (fun yy zz => x.get [bi, g * cg + c, yy, zz])
              ((y * a.stride.1 + i * a.dilation.1 : Nat) - a.padding.1)
              ((z * a.stride.2 + j * a.dilation.2 : Nat) - a.padding.2) * W.get [o, c, i, j]
          match b with
          | none => acc
          | some b => acc + b.get [o])
  | _, _ => .error .shape

/-- output length of a transposed convolution along one axis.  For `F.conv_transpose2d`, nnj/conv2d.py:176. -/
def convTLen (h k s : Nat) (p : Int) (d : Nat) : Int :=
  ((h : Int) - 1) * s - 2 * p + (d : Int) * ((k : Int) - 1) + 1

/-- entry of `img` at `num / s` when `s` divides `num` and the quotient is in range, else 0.
For `F.conv_transpose2d`, nnj/conv2d.py:176. -/
def strideGet [Zero α] (h w : Nat) (img : Nat → Nat → α) (s : Nat × Nat) (y x : Int) : α :=
  if y % (s.1 : Int) = 0 ∧ x % (s.2 : Int) = 0 then padGet h w img (y / s.1) (x / s.2) else 0

/-- `F.conv_transpose2d(input, weight, bias=None, stride, padding, output_padding=0, groups,
dilation)`.  Called at nnj/conv2d.py:176, 273, 415. -/
def convTranspose2d [Zero α] [Add α] [Mul α] (x W : Tensor α) (a : ConvArgs) : Res (Tensor α) :=
  match x.shape, W.shape with
  | [n, ci, h, w], [ci', cg, kh, kw] =>
    if a.padding.1 < 0 ∨ a.padding.2 < 0 then .error .shape
    else if a.groups = 0 ∨ a.stride.1 = 0 ∨ a.stride.2 = 0 ∨ a.dilation.1 = 0 ∨ a.dilation.2 = 0 then
      .error .shape
    else if ¬ (ci = ci' ∧ ci % a.groups = 0) then .error .shape
    else
      let oh := convTLen h kh a.stride.1 a.padding.1 a.dilation.1
      let ow := convTLen w kw a.stride.2 a.padding.2 a.dilation.2
      if oh ≤ 0 ∨ ow ≤ 0 then .error .shape
      else
        let cin := ci / a.groups
        .ok (ofFn [n, cg * a.groups, oh.toNat, ow.toNat] fun idx =>
          let bi := idx.getD 0 0
          let o := idx.getD 1 0
          let y := idx.getD 2 0
          let z := idx.getD 3 0
          let g := o / cg
          sumRange cin fun c => sumRange kh fun i => sumRange kw fun j =>
            strideGet h w (fun yy zz => x.get [bi, g * cin + c, yy, zz]) a.stride
              ((y : Int) + a.padding.1 - (i * a.dilation.1 : Nat))
              ((z : Int) + a.padding.2 - (j * a.dilation.2 : Nat)) * W.get [g * cin + c, o % cg, i, j])
  | _, _ => .error .shape

/-- Hyper-parameters of a max-pooling layer (pairs: height, width).  nnj/maxpool2d.py:17-25. -/
structure PoolArgs where
  kernel : Nat × Nat
  stride : Nat × Nat
  padding : Nat × Nat := (0, 0)
  dilation : Nat × Nat := (1, 1)
  ceilMode : Bool := false

/-- torch `pooling_output_shape` along one axis.  For nnj/maxpool2d.py:17. -/
def poolLen (h k s p d : Nat) (ceil : Bool) : Int :=
  let o := ((h : Int) + 2 * p - (d : Int) * ((k : Int) - 1) - 1 + (if ceil then (s : Int) - 1 else 0)) / (s : Int) + 1
  if ceil ∧ (o - 1) * s ≥ (h : Int) + p then o - 1 else o

/-- positions (flat, in the unpadded `h × w` image) covered by the window of output `(y, z)`,
row-major.  For nnj/maxpool2d.py:17. -/
def window (h w : Nat) (a : PoolArgs) (y z : Nat) : List Nat :=
  (List.range a.kernel.1).flatMap fun i => (List.range a.kernel.2).filterMap fun j =>
    let yy : Int := (y * a.stride.1 + i * a.dilation.1 : Nat) - (a.padding.1 : Int)
    let zz : Int := (z * a.stride.2 + j * a.dilation.2 : Nat) - (a.padding.2 : Int)
    if 0 ≤ yy ∧ yy < h ∧ 0 ≤ zz ∧ zz < w then some (yy.toNat * w + zz.toNat) else none

/-- first position of a maximal value (`cur` is the best so far).  For nnj/maxpool2d.py:17. -/
def argmaxFrom [LT α] [DecidableLT α] (f : Nat → α) (cur : Nat) : List Nat → Nat
  | [] => cur
  | i :: is => if f cur < f i then argmaxFrom f i is else argmaxFrom f cur is

/-- first position of a maximal value in the list of positions, for nnj/maxpool2d.py:17 -/
def argmax [LT α] [DecidableLT α] (f : Nat → α) : List Nat → Nat
  | [] => 0
  | i :: is => argmaxFrom f i is

/-- `F.max_pool2d(..., return_indices=True)`: values and flat indices into the `h × w` plane.
Ties are resolved to the first position of the window, like the CPU kernel.  Called at nnj/maxpool2d.py:17-25. -/
def maxPool2d [LT α] [DecidableLT α] (x : Tensor α) (a : PoolArgs) : Res (Tensor α × Tensor Nat) :=
  match x.shape with
  | [n, c, h, w] =>
    if a.kernel.1 = 0 ∨ a.kernel.2 = 0 ∨ a.stride.1 = 0 ∨ a.stride.2 = 0 ∨ a.dilation.1 = 0 ∨
        a.dilation.2 = 0 then .error .shape
    else if a.kernel.1 / 2 < a.padding.1 ∨ a.kernel.2 / 2 < a.padding.2 then .error .shape
    else
      let oh := poolLen h a.kernel.1 a.stride.1 a.padding.1 a.dilation.1 a.ceilMode
      let ow := poolLen w a.kernel.2 a.stride.2 a.padding.2 a.dilation.2 a.ceilMode
      if oh ≤ 0 ∨ ow ≤ 0 then .error .shape
      else
        let plane := fun (idx : List Nat) (k : Nat) =>
          x.data ((idx.getD 0 0 * c + idx.getD 1 0) * (h * w) + k)
        let best := fun (idx : List Nat) =>
          argmax (plane idx) (window h w a (idx.getD 2 0) (idx.getD 3 0))
        let s := [n, c, oh.toNat, ow.toNat]
        .ok (ofFn s fun idx => plane idx (best idx), ofFn s best)
  | _ => .error .shape

/-- `nn.Upsample(scale_factor=num/den, mode="nearest")`: output length `floor(h * scale)`, source
index `min(floor(i / scale), h - 1)`.  The forward pass inherited at nnj/upsample.py:10. -/
def upsampleNearest (x : Tensor α) (num den : Nat) : Res (Tensor α) :=
  match x.shape with
  | [n, c, h, w] =>
    if num = 0 ∨ den = 0 then .error .shape
    else
      let oh := h * num / den
      let ow := w * num / den
      if oh = 0 ∨ ow = 0 then .error .shape
      else
        .ok (ofFn [n, c, oh, ow] fun idx =>
          x.get [idx.getD 0 0, idx.getD 1 0, min (idx.getD 2 0 * den / num) (h - 1),
            min (idx.getD 3 0 * den / num) (w - 1)])
  | _ => .error .shape

end Torch
end NNJ
