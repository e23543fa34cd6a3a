import Verif.Model.Conv2d

/-!
# nnj/conv2d.py with `padding_mode` and with a string as `padding`

`nnj.Conv2d` passes `padding_mode` to `nn.Conv2d`, whose forward pass then pads the images by itself (`F.pad`) and convolves without padding.  The methods of
nnj/conv2d.py are those of Model/Conv2d except for the inherited `self.forward(x)`: each of them starts with `if val is None: val = self.forward(x)`.
-/

namespace NNJ

/-- The argument `padding_mode`.  nnj/conv2d.py:26. -/
inductive PadMode where
  | zeros
  | reflect
  | replicate
  | circular
  deriving DecidableEq

/-- The position in a row of `h` pixels which position `i` of the padded row (`p` more on each side) is copied from; for `zeros` it may lie outside.
`F.pad(input, ..., mode=...)`, in the forward pass inherited at nnj/conv2d.py:15. -/
def PadMode.src (m : PadMode) (h p i : Nat) : Int :=
  let k : Int := (i : Int) - p
  match m with
  | .zeros => k
  | .reflect => if k < 0 then -k else if k < h then k else 2 * ((h : Int) - 1) - k
  | .replicate => max 0 (min k ((h : Int) - 1))
  | .circular => k % (h : Int)

/-- Does `F.pad` accept padding a row of `h` pixels by `p` on each side?  reflect: "Padding size should be less than the corresponding input dimension";
circular: no wrapping around more than once.  For the forward pass inherited at nnj/conv2d.py:15. -/
def PadMode.accepts (m : PadMode) (h p : Nat) : Bool :=
  match m with
  | .zeros => true
  | .reflect => decide (p < h)
  | .replicate => decide (0 < h)
  | .circular => decide (p ≤ h)

namespace Torch
open Tensor
variable {α : Type}

/-- `F.pad(x, (pw, pw, ph, ph), mode=...)` of a batch of images, for the modes other than constant.  The forward pass inherited at nnj/conv2d.py:15. -/
def pad2 (m : PadMode) (x : Tensor α) (ph pw : Nat) : Res (Tensor α) :=
  match x.shape with
  | [n, c, h, w] =>
    if m.accepts h ph && m.accepts w pw then
      .ok (ofFn [n, c, h + 2 * ph, w + 2 * pw] fun idx =>
        x.get [idx.getD 0 0, idx.getD 1 0, (m.src h ph (idx.getD 2 0)).toNat, (m.src w pw (idx.getD 3 0)).toNat])
    else .error .shape
  | _ => .error .shape

end Torch

namespace Conv2d
open Tensor

variable {α : Type} [Zero α] [One α] [Add α] [Mul α]

/-- `nn.Conv2d.forward`: with a mode other than zeros, `F.conv2d(F.pad(input, ..., mode), weight, bias, stride, 0, dilation, groups)`.
Inherited at nnj/conv2d.py:15. -/
def modeForward (m : PadMode) (cfg : Cfg) (W : Tensor α) (bias : Option (Tensor α)) (x : Tensor α) : Res (Tensor α) :=
  match m with
  | .zeros => forward cfg W bias x
  | m => do
    let x ← Torch.pad2 m x cfg.padding.1 cfg.padding.2
    Torch.conv2d x W bias { cfg.fwdArgs with padding := (0, 0) }

/-- `if val is None: val = self.forward(x)`, nnj/conv2d.py:51-52, 117-118, 167-168, 258-259, 380-381 -/
def modeVal (m : PadMode) (cfg : Cfg) (W : Tensor α) (bias : Option (Tensor α)) (x : Tensor α) (val : Option (Tensor α)) : Res (Tensor α) :=
  match val with
  | none => modeForward m cfg W bias x
  | some v => .ok v

/-- nnj/conv2d.py:44-57 -/
def modeJacobian (m : PadMode) (cfg : Cfg) (W : Tensor α) (bias : Option (Tensor α)) (x : Tensor α) (val : Option (Tensor α)) (wrt : Wrt) :
    Res (Option (Tensor α)) := do
  let val ← modeVal m cfg W bias x val
  jacobian cfg W bias x (some val) wrt

/-- The methods of one `nnj.Conv2d(..., padding_mode=m)`: after line 52, 118, 168, 259, 381 those of Model/Conv2d with `val` given.  nnj/conv2d.py:15-658. -/
def modeLayer (m : PadMode) (cfg : Cfg) (W : Tensor α) (bias : Option (Tensor α)) : PureLayer α where
  forward := modeForward m cfg W bias
  jacobian := modeJacobian m cfg W bias
  jvp := jvp
  jmp x val M wrt :=
    match M with
    | none => modeJacobian m cfg W bias x val wrt
    | some M => jmp cfg W bias x val (some M) wrt
  jmjTp x val M wrt fd td db := do
    let val ← modeVal m cfg W bias x val
    jmjTp cfg W bias x (some val) M wrt fd td db
  vjp x val v wrt := do
    let val ← modeVal m cfg W bias x val
    vjp cfg W bias x (some val) v wrt
  mjp x val M wrt := do
    let val ← modeVal m cfg W bias x val
    mjp cfg W bias x (some val) M wrt
  jTmjp x val M wrt fd td db := do
    let val ← modeVal m cfg W bias x val
    jTmjp cfg W bias x (some val) M wrt fd td db

/-- The module object once constructed.  nnj/conv2d.py:15-41. -/
def modeMod (m : PadMode) (cfg : Cfg) (id wId bId : Nat) : Mod α :=
  PureLayer.toMod
    (fun s => modeLayer m cfg (s.param wId) (if cfg.hasBias then some (s.param bId) else none))
    id cfg.nParams (if cfg.hasBias then [wId, bId] else [wId])

/-- The argument `padding`: numbers, or a string.  nnj/conv2d.py:22. -/
inductive PaddingArg where
  | sizes (ph pw : Nat)
  | same
  | valid
  | otherString

/-- Constructor, nnj/conv2d.py:16-41, for any `padding` and `padding_mode` (`none`: a string that torch does not know).  `nn.Conv2d.__init__` raises ValueError for
wrong groups, for other strings than "same" and "valid", for "same" with a stride, and for an unknown mode; with a string, `self.padding[0]` is its first letter
and line 33 raises TypeError (an integer minus a string). -/
def modeInit (cfg : Cfg) (padding : PaddingArg) (m : Option PadMode) (id wId bId : Nat) : Res (Mod α) :=
  if cfg.groups = 0 ∨ cfg.inChannels % cfg.groups ≠ 0 ∨ cfg.outChannels % cfg.groups ≠ 0 then .error .value
  else match padding, m with
  | .otherString, _ => .error .value
  | _, none => .error .value
  | .same, some _ => if cfg.stride ≠ (1, 1) then .error .value else .error .type
  | .valid, some _ => .error .type
  | .sizes ph pw, some m => if cfg.stride ≠ (1, 1) then .error .value else .ok (modeMod m { cfg with padding := (ph, pw) } id wId bId)

end Conv2d
end NNJ
