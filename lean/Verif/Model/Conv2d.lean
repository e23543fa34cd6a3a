import Verif.Model.Basic

/-!
# nnj/conv2d.py

`cfg` are the constructor arguments, `W` is `self.weight` (shape `[c2, c1 / groups, kh, kw]`),
`bias` is `self.bias`.  Not modelled: string paddings ("same", "valid") and
`padding_mode != "zeros"`.
-/

namespace NNJ
namespace Conv2d
open Tensor

variable {α : Type} [Zero α] [One α] [Add α] [Mul α]

/-- Constructor arguments, nnj/conv2d.py:16-28. -/
structure Cfg where
  inChannels : Nat
  outChannels : Nat
  kernel : Nat × Nat
  stride : Nat × Nat := (1, 1)
  padding : Nat × Nat := (0, 0)
  dilation : Nat × Nat := (1, 1)
  groups : Nat := 1
  hasBias : Bool := true
  useVmap : Bool := true

/-- nnj/conv2d.py:11-12 -/
def computeReversedPadding (padding : Nat) (kernel : Nat) : Int := (kernel : Int) - 1 - (padding : Int)

/-- nnj/conv2d.py:33-35 -/
def Cfg.dwPadding (c : Cfg) : Int × Int :=
  (computeReversedPadding c.padding.1 c.kernel.1, computeReversedPadding c.padding.2 c.kernel.2)

/-- `self.weight.numel()`.  nnj/conv2d.py:36. -/
def Cfg.weightNumel (c : Cfg) : Nat :=
  c.outChannels * (c.inChannels / c.groups) * c.kernel.1 * c.kernel.2

/-- nnj/conv2d.py:36 -/
def Cfg.nParams (c : Cfg) : Nat :=
  if c.hasBias then c.weightNumel + c.outChannels else c.weightNumel

/-- arguments of the forward convolution and of the transposed one.
nnj/conv2d.py:29-31, 180-184, 277-281, 419-423. -/
def Cfg.fwdArgs (c : Cfg) : Torch.ConvArgs :=
  { stride := c.stride, padding := ((c.padding.1 : Int), (c.padding.2 : Int)), dilation := c.dilation,
    groups := c.groups }

/-- arguments of the convolutions that compute weight products (`padding=self.dw_padding`).
nnj/conv2d.py:209-212, 233-236 and so on. -/
def Cfg.dwArgs (c : Cfg) : Torch.ConvArgs :=
  { stride := c.stride, padding := c.dwPadding, dilation := c.dilation, groups := c.groups }

/-- `nn.Conv2d.forward`.  Inherited at nnj/conv2d.py:15. -/
def forward (cfg : Cfg) (W : Tensor α) (bias : Option (Tensor α)) (x : Tensor α) : Res (Tensor α) :=
  Torch.conv2d x W bias cfg.fwdArgs

/-- `if val is None: val = self.forward(x)`, nnj/conv2d.py:51-52, 117-118, 167-168, 258-259, 380-381 -/
def getVal (cfg : Cfg) (W : Tensor α) (bias : Option (Tensor α)) (x : Tensor α) (val : Option (Tensor α)) :
    Res (Tensor α) :=
  match val with
  | none => forward cfg W bias x
  | some v => .ok v

/-- nnj/conv2d.py:74-80 -/
def jvp (_x : Tensor α) (_val : Option (Tensor α)) (_vector : Tensor α) (wrt : Wrt) : Res (Option (Tensor α)) :=
  match wrt with
  | .other => .ok none
  | _ => .error .notImplemented

/-- nnj/conv2d.py:104-150: every flag combination raises. -/
def jmjTp (cfg : Cfg) (W : Tensor α) (bias : Option (Tensor α)) (x : Tensor α) (val : Option (Tensor α))
    (_matrix : Option (Tensor α)) (wrt : Wrt) (_fromDiag _toDiag _diagBackprop : Bool) :
    Res (Option (Tensor α)) := do
  let _ ← getVal cfg W bias x val
  match wrt with
  | .other => pure none
  | _ => .error .notImplemented

/-- fill the rows of a zero tensor one after the other: `for i in range(b): out[i] = f i`.
nnj/conv2d.py:221-240, 331-355, 506-568, 628-653. -/
def fillRows (f : Nat → Res (Tensor α)) (n : Nat) (z : Tensor α) : Res (Tensor α) :=
  (List.range n).foldlM (fun t i => do
    let r ← f i
    t.setRow i r) z

/-- nnj/conv2d.py:205-213 and 229-237: the convolution of one sample -/
def vjpSingle (cfg : Cfg) (c1 c2 h2 w2 : Nat) (vector reversedInput : Tensor α) : Res (Tensor α) := do
  let v ← vector.reshapeInfer [] [1, h2, w2]
  let r ← Torch.conv2d v reversedInput none cfg.dwArgs
  r.reshape [c2 * c1 * cfg.kernel.1 * cfg.kernel.2]

/-- nnj/conv2d.py:194-238: the kernel part of the weight product; `v` is the reversed vector -/
def vjpKernel (cfg : Cfg) (x : Tensor α) (b c1 c2 h2 w2 : Nat) (v : Tensor α) : Res (Tensor α) :=
  if cfg.useVmap then do
    let reversedInputs ← x.flip [-2, -1]
    Tensor.vmap2 (fun inp vec => do
        let inp ← inp.unsqueeze 0
        let inp ← inp.movedim [0] [1]
        let vec ← vec.unsqueeze 0
        let vec ← vec.movedim [0] [1]
        vjpSingle cfg c1 c2 h2 w2 vec inp) reversedInputs v
  else do
    let v ← v.movedim [0] [1]
    fillRows (fun i => do
        let inp ← x.slice 0 i (i + 1)
        let inp ← inp.flip [-2, -1]
        let inp ← inp.movedim [0] [1]
        let vec ← v.slice 1 i (i + 1)
        vjpSingle cfg c1 c2 h2 w2 vec inp) b (zeros [b, c2 * c1 * cfg.kernel.1 * cfg.kernel.2])

/-- nnj/conv2d.py:157-245 -/
def vjp (cfg : Cfg) (W : Tensor α) (bias : Option (Tensor α)) (x : Tensor α) (val : Option (Tensor α))
    (vector : Tensor α) (wrt : Wrt) : Res (Option (Tensor α)) := do
  let val ← getVal cfg W bias x val
  let (b, c1, h1, w1) ← x.dims4
  let (_, c2, h2, w2) ← val.dims4
  assertR (vector.shape = [b, c2 * h2 * w2])
  match wrt with
  | .input => do
    let v ← vector.reshape [b, c2, h2, w2]
    let r ← Torch.convTranspose2d v W cfg.fwdArgs
    some <$> r.reshape [b, c1 * h1 * w1]
  | .weight => do
    let v0 ← vector.reshape [b, c2, h2, w2]
    let v ← v0.flip [-2, -1]
    let vectorJ ← vjpKernel cfg x b c1 c2 h2 w2 v
    match bias with
    | none => pure (some vectorJ)
    | some _ => do
      let bTerm ← einsum% "bchw->bc" [v0]
      some <$> cat2 vectorJ bTerm 1
  | .other => pure none

/-- nnj/conv2d.py:309-323 and 339-354: the convolution of one sample; `m` has shape
`[c2, 1, h2, w2, rows]` -/
def mjpSingle (cfg : Cfg) (c1 c2 h2 w2 rows : Nat) (m reversedInput : Tensor α) : Res (Tensor α) := do
  let v ← m.movedim [1, 2, 3] [-3, -2, -1]
  let v ← v.reshapeInfer [] [1, h2, w2]
  let r ← Torch.conv2d v reversedInput none cfg.dwArgs
  let r ← r.reshape [c2, rows, c1, cfg.kernel.1, cfg.kernel.2]
  let r ← r.movedim [-3, -2, -1] [1, 2, 3]
  r.reshape [c2 * c1 * cfg.kernel.1 * cfg.kernel.2, rows]

/-- nnj/conv2d.py:295-356: the kernel part of the weight product; `m` is the reversed matrix of
shape `[b, c2, h2, w2, rows]` -/
def mjpKernel (cfg : Cfg) (x : Tensor α) (b c1 c2 h2 w2 rows : Nat) (m : Tensor α) : Res (Tensor α) :=
  if cfg.useVmap then do
    let reversedInputs ← x.flip [-2, -1]
    Tensor.vmap2 (fun inp mat => do
        let inp ← inp.unsqueeze 0
        let inp ← inp.movedim [0] [1]
        let mat ← mat.unsqueeze 0
        let mat ← mat.movedim [0] [1]
        mjpSingle cfg c1 c2 h2 w2 rows mat inp) reversedInputs m
  else do
    let m ← m.movedim [0] [1]
    fillRows (fun i => do
        let inp ← x.slice 0 i (i + 1)
        let inp ← inp.flip [-2, -1]
        let inp ← inp.movedim [0] [1]
        let mat ← m.slice 1 i (i + 1)
        mjpSingle cfg c1 c2 h2 w2 rows mat inp) b
      (zeros [b, c2 * c1 * cfg.kernel.1 * cfg.kernel.2, rows])

/-- nnj/conv2d.py:262-364: `mjp` once `val` and `matrix` are known -/
def mjpSome (cfg : Cfg) (W : Tensor α) (bias : Option (Tensor α)) (x val matrix : Tensor α) (wrt : Wrt) :
    Res (Option (Tensor α)) := do
  let (b, c1, h1, w1) ← x.dims4
  let (_, c2, h2, w2) ← val.dims4
  let rows ← matrix.dim 1
  assertR (matrix.shape = [b, rows, c2 * h2 * w2])
  match wrt with
  | .input => do
    let m ← matrix.movedim [-1] [-2]
    let m ← m.reshape [b, c2, h2, w2, rows]
    let m ← m.movedim [1, 2, 3] [-3, -2, -1]
    let m ← m.reshapeInfer [] [c2, h2, w2]
    let r ← Torch.convTranspose2d m W cfg.fwdArgs
    let r ← r.reshape [b, rows, c1, h1, w1]
    let r ← r.movedim [-3, -2, -1] [1, 2, 3]
    let r ← r.reshape [b, c1 * h1 * w1, rows]
    some <$> r.movedim [1] [2]
  | .weight => do
    let m ← matrix.movedim [-1] [-2]
    let m ← m.reshape [b, c2, h2, w2, rows]
    let m ← m.flip [-3, -2]
    let matrixJ ← mjpKernel cfg x b c1 c2 h2 w2 rows m
    let matrixJ ← matrixJ.movedim [-1] [-2]
    match bias with
    | none => pure (some matrixJ)
    | some _ => do
      let m ← matrix.reshapeInfer [b] [c2, h2, w2]
      let bTerm ← einsum% "bvchw->bvc" [m]
      some <$> cat2 matrixJ bTerm 2
  | .other => pure none

/-- nnj/conv2d.py:44-57 -/
def jacobian (cfg : Cfg) (W : Tensor α) (bias : Option (Tensor α)) (x : Tensor α) (val : Option (Tensor α))
    (wrt : Wrt) : Res (Option (Tensor α)) := do
  let val ← getVal cfg W bias x val
  let (b, c2, h2, w2) ← val.dims4
  let identity ← (ones [b, c2 * h2 * w2] : Tensor α).diagEmbed
  mjpSome cfg W bias x val identity wrt

/-- nnj/conv2d.py:83-101 -/
def jmp (cfg : Cfg) (W : Tensor α) (bias : Option (Tensor α)) (x : Tensor α) (val : Option (Tensor α))
    (matrix : Option (Tensor α)) (wrt : Wrt) : Res (Option (Tensor α)) :=
  match matrix with
  | none => jacobian cfg W bias x val wrt
  | some _ =>
    match wrt with
    | .other => .ok none
    | _ => .error .notImplemented

/-- nnj/conv2d.py:248-364 -/
def mjp (cfg : Cfg) (W : Tensor α) (bias : Option (Tensor α)) (x : Tensor α) (val : Option (Tensor α))
    (matrix : Option (Tensor α)) (wrt : Wrt) : Res (Option (Tensor α)) := do
  let val ← getVal cfg W bias x val
  match matrix with
  | none => jacobian cfg W bias x (some val) wrt
  | some m => mjpSome cfg W bias x val m wrt

/-- full -> full case wrt input, nnj/conv2d.py:386-392 -/
def jTmjpInputFull (cfg : Cfg) (W : Tensor α) (bias : Option (Tensor α)) (x val matrix : Tensor α) :
    Res (Tensor α) := do
  let m ← needR (← mjp cfg W bias x (some val) (some matrix) .input)
  let m ← m.movedim [-2] [-1]
  let m ← needR (← mjp cfg W bias x (some val) (some m) .input)
  m.movedim [-2] [-1]

/-- diag -> diag case wrt input, nnj/conv2d.py:407-429 (`matrix.shape[4:]` is empty) -/
def jTmjpInputDiag (cfg : Cfg) (W : Tensor α) (x val matrix : Tensor α) : Res (Tensor α) := do
  let (b, c1, h1, w1) ← x.dims4
  let (_, c2, h2, w2) ← val.dims4
  let m ← matrix.reshape [b, c2, h2, w2]
  let m ← m.movedim [1, 2, 3] [-3, -2, -1]
  let m ← m.reshapeInfer [] [c2, h2, w2]
  let r ← Torch.convTranspose2d m (W.map fun a => a * a) cfg.fwdArgs
  let r ← r.reshape [b, c1, h1, w1]
  let r ← r.movedim [-3, -2, -1] [1, 2, 3]
  r.reshape [b, c1 * h1 * w1]

/-- The part common to both passes of the full -> full case wrt weight (nnj/conv2d.py:449-472 and
478-499, in the loop version 516-539 and 545-566): `m` has shape `[1, c2, h2, w2, rows]`. -/
def weightPassTail (cfg : Cfg) (bias : Option (Tensor α)) (c1 c2 h2 w2 rows : Nat) (m reversedInput : Tensor α) :
    Res (Tensor α) := do
  let m ← m.flip [-3, -2]
  let m ← m.movedim [0] [1]
  let r ← mjpSingle cfg c1 c2 h2 w2 rows m reversedInput
  match bias with
  | none => pure r
  | some _ => do
    let m ← m.reshapeInfer [c2, h2, w2] []
    let bTerm ← einsum% "chwv->cv" [m]
    cat2 r bTerm 0

/-- One of the two identical passes of the full -> full case wrt weight (nnj/conv2d.py:445-472 and
474-499, in the loop version 512-539 and 541-566): `m` (shape `[1, rows, c2*h2*w2]`) is multiplied
by the weight Jacobian; the result has shape `[n_params, rows]`. -/
def weightPass (cfg : Cfg) (bias : Option (Tensor α)) (c1 c2 h2 w2 rows : Nat) (m reversedInput : Tensor α) :
    Res (Tensor α) := do
  let m ← m.movedim [-1] [-2]
  let m ← m.reshape [1, c2, h2, w2, rows]
  weightPassTail cfg bias c1 c2 h2 w2 rows m reversedInput

/-- Both passes for one sample.  The second pass reads the `[n_params, rows]` result of the first:
conv2d.py:474-476 moves `rows` first and reshapes to `[1, c2, h2, w2, n_params]`, which is the same
as `weightPass` on the transposed matrix given a leading dimension. -/
def weightSandwich (cfg : Cfg) (bias : Option (Tensor α)) (c1 c2 h2 w2 : Nat) (m reversedInput : Tensor α) :
    Res (Tensor α) := do
  let r ← weightPass cfg bias c1 c2 h2 w2 (c2 * h2 * w2) m reversedInput
  let r ← r.movedim [-1] [-2]
  let r ← r.reshape [1, c2, h2, w2, cfg.nParams]
  weightPassTail cfg bias c1 c2 h2 w2 cfg.nParams r reversedInput

/-- full -> full case wrt weight, nnj/conv2d.py:431-569 -/
def jTmjpWeightFull (cfg : Cfg) (bias : Option (Tensor α)) (x val matrix : Tensor α) : Res (Tensor α) := do
  let (b, c1, _, _) ← x.dims4
  let (_, c2, h2, w2) ← val.dims4
  assertR (matrix.shape = [b, c2 * h2 * w2, c2 * h2 * w2])
  if cfg.useVmap then
    Tensor.vmap2 (fun inp mat => do
      let inp ← inp.unsqueeze 0
      let inp ← inp.flip [-2, -1]
      let inp ← inp.movedim [0] [1]
      let mat ← mat.unsqueeze 0
      weightSandwich cfg bias c1 c2 h2 w2 mat inp) x matrix
  else
    fillRows (fun i => do
      let inp ← x.slice 0 i (i + 1)
      let inp ← inp.flip [-2, -1]
      let inp ← inp.movedim [0] [1]
      let mat ← matrix.slice 0 i (i + 1)
      weightSandwich cfg bias c1 c2 h2 w2 mat inp) b (zeros [b, cfg.nParams, cfg.nParams])

/-- nnj/conv2d.py:605-621 and 636-652: one sample of the diag -> diag case wrt weight -/
def weightDiagSingle (cfg : Cfg) (c1 c2 h2 w2 : Nat) (m weightSq : Tensor α) : Res (Tensor α) := do
  let v ← m.movedim [1, 2, 3] [-3, -2, -1]
  let v ← v.reshapeInfer [] [1, h2, w2]
  let r ← Torch.conv2d v weightSq none cfg.dwArgs
  let r ← r.reshape [c2, c1, cfg.kernel.1, cfg.kernel.2]
  let r ← r.movedim [-3, -2, -1] [1, 2, 3]
  let r ← r.flip [-4, -3]
  r.reshape [c2 * c1 * cfg.kernel.1 * cfg.kernel.2]

/-- `torch.sum(t, 2)` of a rank 3 tensor.  nnj/conv2d.py:593. -/
def sum2 (t : Tensor α) : Res (Tensor α) :=
  match t.shape with
  | [b, c, n] => .ok ⟨[b, c], fun k => sumRange n fun i => t.data (k * n + i)⟩
  | _ => .error .index

/-- nnj/conv2d.py:596-652: the kernel part of the diag -> diag case wrt weight -/
def weightDiagKernel (cfg : Cfg) (b c1 c2 h2 w2 : Nat) (flipSq m : Tensor α) : Res (Tensor α) :=
  if cfg.useVmap then
    Tensor.vmap2 (fun inp mat => do
      let inp ← inp.unsqueeze 0
      let inp ← inp.movedim [0] [1]
      let mat ← mat.unsqueeze 0
      let mat ← mat.movedim [0] [1]
      weightDiagSingle cfg c1 c2 h2 w2 mat inp) flipSq m
  else do
    let m ← m.movedim [0] [1]
    let flipSq ← flipSq.movedim [0] [1]
    fillRows (fun i => do
      let inp ← flipSq.slice 1 i (i + 1)
      let mat ← m.slice 1 i (i + 1)
      weightDiagSingle cfg c1 c2 h2 w2 mat inp) b (zeros [b, c2 * c1 * cfg.kernel.1 * cfg.kernel.2])

/-- diag -> diag case wrt weight, nnj/conv2d.py:585-658 -/
def jTmjpWeightDiag (cfg : Cfg) (bias : Option (Tensor α)) (x val matrix : Tensor α) : Res (Tensor α) := do
  let (b, c1, _, _) ← x.dims4
  let (_, c2, h2, w2) ← val.dims4
  let m ← matrix.reshape [b, c2, h2, w2]
  let m ← m.flip [-3, -2, -1]
  let xf ← x.flip [-3, -2, -1]
  let flipSq := xf.map fun a => a * a
  let r ← weightDiagKernel cfg b c1 c2 h2 w2 flipSq m
  match bias with
  | none => pure r
  | some _ => do
    let m ← matrix.reshape [b, c2, h2 * w2]
    let biasTerm ← sum2 m
    cat2 r biasTerm 1

/-- nnj/conv2d.py:367-658 -/
def jTmjp (cfg : Cfg) (W : Tensor α) (bias : Option (Tensor α)) (x : Tensor α) (val : Option (Tensor α))
    (matrix : Option (Tensor α)) (wrt : Wrt) (fromDiag toDiag _diagBackprop : Bool) :
    Res (Option (Tensor α)) := do
  let val ← getVal cfg W bias x val
  let (matrix, fromDiag) := match matrix with
    | none => (onesLike val, true)
    | some m => (m, fromDiag)
  match wrt with
  | .input =>
    match fromDiag, toDiag with
    | false, false => some <$> jTmjpInputFull cfg W bias x val matrix
    | true, false => do
      let m ← matrix.diagEmbed
      some <$> jTmjpInputFull cfg W bias x val m
    | false, true => do
      let r ← jTmjpInputFull cfg W bias x val matrix
      some <$> r.diagonal12
    | true, true => some <$> jTmjpInputDiag cfg W x val matrix
  | .weight =>
    match fromDiag, toDiag with
    | false, false => some <$> jTmjpWeightFull cfg bias x val matrix
    | true, false => do
      let m ← matrix.diagEmbed
      some <$> jTmjpWeightFull cfg bias x val m
    | false, true => do
      let r ← jTmjpWeightFull cfg bias x val matrix
      some <$> r.diagonal12
    | true, true => some <$> jTmjpWeightDiag cfg bias x val matrix
  | .other => pure none

/-- The methods of one `nnj.Conv2d` for given parameter values, nnj/conv2d.py:15-658 -/
def layer (cfg : Cfg) (W : Tensor α) (bias : Option (Tensor α)) : PureLayer α where
  forward := forward cfg W bias
  jacobian := jacobian cfg W bias
  jvp := jvp
  jmp := jmp cfg W bias
  jmjTp := jmjTp cfg W bias
  vjp := vjp cfg W bias
  mjp := mjp cfg W bias
  jTmjp := jTmjp cfg W bias

/-- The module object once constructed.  nnj/conv2d.py:15-41. -/
def mod (cfg : Cfg) (id wId bId : Nat) : Mod α :=
  PureLayer.toMod
    (fun s => layer cfg (s.param wId) (if cfg.hasBias then some (s.param bId) else none))
    id cfg.nParams (if cfg.hasBias then [wId, bId] else [wId])

/-- Constructor, nnj/conv2d.py:16-41: `nn.Conv2d.__init__` checks the groups (ValueError); the nnj
class raises ValueError for every stride other than (1, 1). -/
def init (cfg : Cfg) (id wId bId : Nat) : Res (Mod α) :=
  if cfg.groups = 0 ∨ cfg.inChannels % cfg.groups ≠ 0 ∨ cfg.outChannels % cfg.groups ≠ 0 then .error .value
  else if cfg.stride ≠ (1, 1) then .error .value
  else .ok (mod cfg id wId bId)

end Conv2d
end NNJ
