import Verif.Model.Basic

/-!
# Single and double precision

What the methods of nnj do with the `dtype` of their tensors, without the numbers: a second,
small model, in which a tensor is only its `dtype` and the lowest precision its numbers went
through, and in which every method is written again branch by branch, line by line.

The rules of torch used here (trusted):
* `+`, `-`, `*`, `**`, `einsum` that sums over no index: the wider of the two dtypes;
* `torch.cat`: the wider of the dtypes;
* `einsum` that sums over an index, `F.linear`, `F.conv2d`, `F.conv_transpose2d`: the dtypes have
  to be equal, otherwise a RuntimeError;
* `a[index tensors] = v`: the dtypes have to be equal, otherwise a RuntimeError;
* `a[i, :] = v` and `a += v`: `v` is converted to the dtype of `a`, without a warning;
* `torch.ones(.., device=..)` and `torch.zeros(.., device=..)`: the default dtype of the program
  (`torch.get_default_dtype()`, single unless the program has changed it);
* `ones_like`, `zeros_like`, `dtype=x.dtype`: that of the tensor; everything else (reshape, flip,
  slicing, `movedim`, `diag_embed`, `diagonal`, `expand`, `exp`, `sum`, ..): keeps the dtype.

Simplified: shapes are left out (the calls are taken to have the right shapes and a batch that is
not empty); for an `einsum` of three tensors of different dtypes torch may convert where the model
raises, and for a sum over an index of size one too (no theorem is about such calls); the feature
maps of a Sequential are those of the `x` that is passed; `jmjTp` takes no lists, and lists in
lists returned by `jTmjp` are written as one list.
-/

namespace NNJ.Dt

/-- The dtypes `torch.float32` and `torch.float64`.  E.g. nnj/sequential.py:151. -/
inductive DType where
  | single
  | double
  deriving DecidableEq, Repr

/-- The wider dtype: the one torch converts to in `+`, `cat`, ...  E.g. nnj/linear.py:56. -/
def DType.max : DType → DType → DType
  | .single, .single => .single
  | _, _ => .double

/-- The less precise of two dtypes; used to keep track of lost digits.  E.g. nnj/conv2d.py:240. -/
def DType.min : DType → DType → DType
  | .double, .double => .double
  | _, _ => .single

/-- What is kept of a tensor: its dtype, and the precision of the numbers in it: `single` as soon
as one of the computations they come from was rounded to single precision.
E.g. nnj/conv2d.py:221,240,245. -/
structure DT where
  ty : DType
  acc : DType
  deriving DecidableEq, Repr

/-- Why a call does not return: a RuntimeError of torch about dtypes, `raise NotImplementedError`,
an `assert`, or `None` (or a list) where a tensor is needed.  E.g. nnj/conv2d.py:75. -/
inductive DErr where
  | dtype
  | notImplemented
  | assertion
  | noneUsed
  deriving DecidableEq, Repr

/-- The result of a call.  E.g. nnj/conv2d.py:75. -/
abbrev DRes := Except DErr

/-- Numbers that are exact in each precision, in a tensor of dtype `d`: `torch.ones`,
`torch.zeros`, `torch.eye`.  E.g. nnj/sequential.py:268. -/
def DT.const (d : DType) : DT := ⟨d, .double⟩

/-- An elementwise function of one tensor: `torch.exp(x)`, `x**2`, `torch.norm`, ..
E.g. nnj/conv2d.py:598. -/
def DT.unary (a : DT) : DT := ⟨a.ty, a.acc.min a.ty⟩

/-- `a + b`, `a * b`, `einsum` without a summation index.  E.g. nnj/linear.py:32. -/
def DT.arith (a b : DT) : DT := ⟨a.ty.max b.ty, (a.acc.min b.acc).min (a.ty.max b.ty)⟩

/-- `torch.cat([a, b])`: the numbers stay as they are, the dtype is the wider one.
E.g. nnj/conv2d.py:245. -/
def DT.cat (a b : DT) : DT := ⟨a.ty.max b.ty, a.acc.min b.acc⟩

/-- `F.conv2d`, `F.conv_transpose2d`, `F.linear`, `einsum` with a summation index: torch demands
equal dtypes.  E.g. nnj/conv2d.py:176. -/
def DT.contract (a b : DT) : DRes DT :=
  if a.ty = b.ty then .ok (a.arith b) else .error .dtype

/-- `a[i, :] = v`: `v` is converted to the dtype of `a`.  E.g. nnj/conv2d.py:240. -/
def DT.copyInto (a v : DT) : DT := ⟨a.ty, (a.acc.min v.acc).min a.ty⟩

/-- `a += v`: the result has the dtype of `a`.  E.g. nnj/sequential.py:76. -/
def DT.addInPlace (a v : DT) : DT := ⟨a.ty, (a.acc.min v.acc).min a.ty⟩

/-- `a[indices] = v`: torch demands equal dtypes.  E.g. nnj/maxpool2d.py:176. -/
def DT.indexPut (a v : DT) : DRes DT :=
  if a.ty = v.ty then .ok ⟨a.ty, a.acc.min v.acc⟩ else .error .dtype

/-- A value that has to be a tensor.  E.g. nnj/skipconnection.py:59. -/
def need : Option DT → DRes DT
  | some t => .ok t
  | none => .error .noneUsed

/-- What the program around the calls has set: the default dtype of torch, and the dtypes of the
parameters.  E.g. nnj/conv2d.py:54 and nnj/abstract_jacobian.py:246. -/
structure Env where
  dflt : DType
  par : Nat → DType

/-- The parameter `i`.  E.g. nnj/linear.py:25. -/
def Env.P (e : Env) (i : Nat) : DT := .const (e.par i)

/-- The layers.  `act true`: the activations whose derivative is computed from `val` (ReLU, Tanh,
Sigmoid: nnj/relu.py:22, nnj/tanh.py:26, nnj/sigmoid.py:26); `act false`: those that compute it
from `x` (Softplus, Sinusoidal, TruncExp: nnj/softplus.py:26, nnj/sinusoidal.py:30,
nnj/truncexp.py:47).  `reshape` is Reshape and Flatten (nnj/reshape.py, nnj/flatten.py).  The
numbers are the objects `weight` and `bias`; `conv w b v`: `use_vmap_for_backprop = v`
(nnj/conv2d.py:37). -/
inductive Leaf where
  | linear (w : Nat) (b : Option Nat)
  | conv (w : Nat) (b : Option Nat) (vmap : Bool)
  | act (fromVal : Bool)
  | reshape
  | l2norm
  | pool
  | upsample
  deriving DecidableEq, Repr

/-- A layer with a bias adds it (`F.linear(x, w, b)`, `F.conv2d(x, w, b)`), of equal dtype.
E.g. nnj/conv2d.py:52. -/
def addBias (e : Env) (y : DT) : Option Nat → DRes DT
  | none => .ok y
  | some b => y.contract (e.P b)

/-- `forward` of the layers: nn.Linear and nn.Conv2d (nnj/linear.py:9, nnj/conv2d.py:15), the
activations (e.g. nnj/sinusoidal.py:16), nnj/reshape.py:16-18, nnj/l2norm.py:17-20,
nnj/maxpool2d.py:16-27, nn.Upsample (nnj/upsample.py:10).  Max pooling picks numbers. -/
def Leaf.fwd (e : Env) : Leaf → DT → DRes DT
  | .linear w b, x => do addBias e (← x.contract (e.P w)) b
  | .conv w b _, x => do addBias e (← x.contract (e.P w)) b
  | .act _, x => .ok x.unary
  | .reshape, x => .ok x
  | .l2norm, x => .ok ((DT.unary x).arith x)
  | .pool, x => .ok x
  | .upsample, x => .ok x

/-- `val`, if it is passed, and otherwise `self.forward(x)`.  E.g. nnj/linear.py:26-27. -/
def Leaf.valOr (e : Env) (l : Leaf) (x : DT) : Option DT → DRes DT
  | some v => .ok v
  | none => l.fwd e x

/-- `Linear.jacobian`, nnj/linear.py:15-34. -/
def linJacobian (e : Env) (w : Nat) (b : Option Nat) (x : DT) (val : Option DT) :
    Wrt → DRes (Option DT)
  | .input => .ok (some (e.P w))
  | .weight => do
      let val ← (Leaf.linear w b).valOr e x val
      let outIdentity := DT.const val.ty
      let j := x.arith outIdentity
      .ok (some (if b.isSome then j.cat outIdentity else j))
  | .other => .ok none

/-- `Linear.jvp` and `Linear.jmp` with a matrix, nnj/linear.py:40-63, 66-96. -/
def linJvp (e : Env) (w : Nat) (b : Option Nat) (x : DT) (val : Option DT) (v : DT) :
    Wrt → DRes (Option DT)
  | .input => do .ok (some (← (e.P w).contract v))
  | .weight => do
      let _ ← (Leaf.linear w b).valOr e x val
      let r ← v.contract x
      .ok (some (if b.isSome then r.arith v else r))
  | .other => .ok none

/-- `Linear.jmjTp`, nnj/linear.py:98-161. -/
def linJmjTp (e : Env) (w : Nat) (b : Option Nat) (x : DT) (val : Option DT) (m : Option DT)
    (wrt : Wrt) (fromDiag _toDiag : Bool) : DRes (Option DT) := do
  let val ← (Leaf.linear w b).valOr e x val
  match wrt with
  | .input =>
      let m' := m.getD (.const x.ty)
      let r ← (e.P w).contract m'
      .ok (some (← r.contract (e.P w)))
  | .weight =>
      let m' := m.getD (.const x.ty)
      let fromDiag := fromDiag || m.isNone
      if fromDiag then
        let r ← (x.arith x).contract m'
        .ok (some (if b.isSome then r.arith m' else r))
      else
        let jm ← need (← linJvp e w b x (some val) m' .weight)
        linJvp e w b x (some val) jm .weight
  | .other => .ok none

/-- `Linear.vjp` and `Linear.mjp` with a matrix, nnj/linear.py:167-184, 186-211. -/
def linVjp (e : Env) (w : Nat) (b : Option Nat) (x : DT) (v : DT) : Wrt → DRes (Option DT)
  | .input => do .ok (some (← v.contract (e.P w)))
  | .weight => .ok (some (if b.isSome then (v.arith x).cat v else v.arith x))
  | .other => .ok none

/-- `Linear.jTmjp`, nnj/linear.py:213-294. -/
def linJTmjp (e : Env) (w : Nat) (b : Option Nat) (x : DT) (val : Option DT) (m : Option DT)
    (wrt : Wrt) (fromDiag toDiag : Bool) : DRes (Option DT) := do
  let val ← (Leaf.linear w b).valOr e x val
  let m' := m.getD (.const val.ty)
  let fromDiag := fromDiag || m.isNone
  match wrt, fromDiag, toDiag with
  | .input, _, _ =>
      let r ← (e.P w).contract m'
      .ok (some (← r.contract (e.P w)))
  | .weight, false, false =>
      let mj ← need (← linVjp e w b x m' .weight)
      linVjp e w b x mj .weight
  | .weight, true, false =>
      let block := (x.arith x).arith m'
      let outer := x.arith m'
      .ok (some (if b.isSome then (block.cat outer).cat (outer.cat m') else block))
  | .weight, _, true =>
      let block := (x.arith x).arith m'
      .ok (some (if b.isSome then block.cat m' else block))
  | .other, _, _ => .ok none

/-- The products with the weight part of `Conv2d.vjp`, `mjp` and diagonal `jTmjp`: one convolution
per sample.  With `vmap` the results are stacked; without it they are written into the rows of
`torch.zeros(.., device=x.device)`, which has the default dtype (nnj/conv2d.py:198-240, 302-358,
600-653). -/
def convRows (e : Env) (vmap : Bool) (x v : DT) : DRes DT := do
  let r ← v.contract x
  .ok (if vmap then r else (DT.const e.dflt).copyInto r)

/-- `Conv2d.vjp` and `Conv2d.mjp` with a matrix, nnj/conv2d.py:156-245, 248-364. -/
def convVjp (e : Env) (w : Nat) (b : Option Nat) (vmap : Bool) (x : DT) (val : Option DT)
    (v : DT) (wrt : Wrt) : DRes (Option DT) := do
  let _ ← (Leaf.conv w b vmap).valOr e x val
  match wrt with
  | .input => .ok (some (← v.contract (e.P w)))
  | .weight =>
      let r ← convRows e vmap x v
      .ok (some (if b.isSome then r.cat v.unary else r))
  | .other => .ok none

/-- `Conv2d.jacobian`, nnj/conv2d.py:44-57: the identity has the default dtype. -/
def convJacobian (e : Env) (w : Nat) (b : Option Nat) (vmap : Bool) (x : DT) (val : Option DT)
    (wrt : Wrt) : DRes (Option DT) := do
  let val ← (Leaf.conv w b vmap).valOr e x val
  convVjp e w b vmap x (some val) (.const e.dflt) wrt

/-- `Conv2d.jTmjp` with a full matrix and `to_diag=False`: nnj/conv2d.py:386-392 (input) and
431-569 (weight; without `vmap` each sample's matrix is written into `torch.zeros` of the default
dtype, line 506 and 568). -/
def convFull (e : Env) (w : Nat) (b : Option Nat) (vmap : Bool) (x val m : DT) :
    Wrt → DRes (Option DT)
  | .input => do
      let m1 ← need (← convVjp e w b vmap x (some val) m .input)
      convVjp e w b vmap x (some val) m1 .input
  | .weight => do
      let mj ← m.contract x
      let mj := if b.isSome then mj.cat m.unary else mj
      let r ← mj.contract x
      let r := if b.isSome then r.cat mj.unary else r
      .ok (some (if vmap then r else (DT.const e.dflt).copyInto r))
  | .other => .ok none

/-- `Conv2d.jTmjp`, nnj/conv2d.py:367-658. -/
def convJTmjp (e : Env) (w : Nat) (b : Option Nat) (vmap : Bool) (x : DT) (val : Option DT)
    (m : Option DT) (wrt : Wrt) (fromDiag toDiag : Bool) : DRes (Option DT) := do
  let val ← (Leaf.conv w b vmap).valOr e x val
  let m' := m.getD (.const val.ty)
  let fromDiag := fromDiag || m.isNone
  match wrt, fromDiag, toDiag with
  | .input, true, true => do .ok (some (← m'.contract (e.P w).unary))
  | .weight, true, true => do
      let r ← convRows e vmap x.unary m'
      .ok (some (if b.isSome then r.cat m'.unary else r))
  | wrt, _, _ => convFull e w b vmap x val m' wrt

/-- `MaxPool2d.vjp`, `MaxPool2d.mjp` with a matrix, and `jTmjp` with a full matrix: the numbers are
written to index positions of `torch.zeros(.., device=..)`, nnj/maxpool2d.py:175-176, 214-215,
265-266. -/
def poolScatter (e : Env) (v : DT) : Wrt → DRes (Option DT)
  | .input => do .ok (some (← (DT.const e.dflt).indexPut v))
  | _ => .ok none

/-- `MaxPool2d.jmp` with a matrix (rows are picked), nnj/maxpool2d.py:80-108; and
`MaxPool2d.jacobian`, nnj/maxpool2d.py:30-53, is it at an identity of the default dtype. -/
def poolPick (v : DT) : Wrt → DRes (Option DT)
  | .input => .ok (some v)
  | _ => .ok none

/-- `MaxPool2d.jTmjp`, nnj/maxpool2d.py:220-304; diagonal to diagonal writes into
`torch.zeros_like(x)` (line 297). -/
def poolJTmjp (e : Env) (x val : DT) (m : Option DT) (wrt : Wrt) (fromDiag toDiag : Bool) :
    DRes (Option DT) :=
  let m' := m.getD (.const val.ty)
  let fromDiag := fromDiag || m.isNone
  match wrt, fromDiag, toDiag with
  | .input, true, true => do .ok (some (← (DT.const x.ty).indexPut m'))
  | wrt, _, _ => poolScatter e m' wrt

/-- `Upsample.vjp`, `mjp` with a matrix and `jTmjp`: convolution with `torch.ones(1, 1, s, s,
device=..)`, nnj/upsample.py:132-145, 172-187, 222-283 (two convolutions for a full matrix). -/
def upSum (e : Env) (v : DT) : Wrt → DRes (Option DT)
  | .input => do .ok (some (← v.contract (.const e.dflt)))
  | _ => .ok none

/-- `Upsample.jTmjp`, nnj/upsample.py:192-286. -/
def upJTmjp (e : Env) (val : DT) (m : Option DT) (wrt : Wrt) (fromDiag toDiag : Bool) :
    DRes (Option DT) :=
  let m' := m.getD (.const val.ty)
  let fromDiag := fromDiag || m.isNone
  match wrt, fromDiag, toDiag with
  | .input, true, true => upSum e m' .input
  | .input, _, _ => do upSum e (← need (← upSum e m' .input)) .input
  | _, _, _ => .ok none

/-- The diagonal of the Jacobian of an activation (nnj/relu.py:22, nnj/tanh.py:26,
nnj/sigmoid.py:26, nnj/softplus.py:26, nnj/sinusoidal.py:30, nnj/truncexp.py:47). -/
def actDiag (fromVal : Bool) (x : DT) (val : Option DT) : Wrt → DRes (Option DT)
  | .input => .ok (some (if fromVal then (val.getD x.unary).unary else x.unary))
  | _ => .ok none

/-- `AbstractDiagonalJacobian.jvp`, `jmp`, `vjp`, `mjp` (with a matrix): elementwise products,
nnj/abstract_diagonal_jacobian.py:33-67, 114-146. -/
def actProd (fromVal : Bool) (x : DT) (val : Option DT) (v : DT) (wrt : Wrt) :
    DRes (Option DT) := do
  match ← actDiag fromVal x val wrt with
  | none => .ok none
  | some d => .ok (some (d.arith v))

/-- `AbstractDiagonalJacobian.jmjTp` and `jTmjp`, nnj/abstract_diagonal_jacobian.py:70-107,
149-177; the default matrix is `ones_like` of `x` or of `val`. -/
def actMetric (fromVal : Bool) (x : DT) (val : Option DT) (m : Option DT) (wrt : Wrt) :
    DRes (Option DT) := do
  match ← actDiag fromVal x val wrt with
  | none => .ok none
  | some d => .ok (some ((d.arith (m.getD (.const x.ty))).arith d))

/-- `L2Norm.jacobian`, nnj/l2norm.py:23-46: the identity of line 41 has the default dtype. -/
def l2Jacobian (e : Env) (x : DT) : Wrt → DRes (Option DT)
  | .input =>
      let nx := x.unary.arith x
      let j := (DT.const e.dflt).arith (nx.arith nx)
      .ok (some (x.unary.arith j))
  | _ => .ok none

/-- The products of `AbstractJacobian` used by L2Norm: `jvp`, `jmp`, `vjp`, `mjp`,
nnj/abstract_jacobian.py:39-80, 139-185. -/
def l2Prod (e : Env) (x : DT) (v : DT) (wrt : Wrt) : DRes (Option DT) := do
  match ← l2Jacobian e x wrt with
  | none => .ok none
  | some j => .ok (some (← j.contract v))

/-- `AbstractJacobian.jmjTp` and `jTmjp`, nnj/abstract_jacobian.py:82-133, 187-240; without a
matrix `einsum` is called with `None`. -/
def l2Metric (e : Env) (x : DT) (m : Option DT) (wrt : Wrt) : DRes (Option DT) := do
  match ← l2Jacobian e x wrt with
  | none => .ok none
  | some j => do
      let r ← j.contract (← need m)
      .ok (some (← r.contract j))

/-- `Reshape.jvp`, `jmp`, `vjp`, `mjp`: the vector or matrix itself; `None` raises
(nnj/reshape.py:41-75, 113-150). -/
def reProd (v : Option DT) : Wrt → DRes (Option DT)
  | .input => match v with
      | some t => .ok (some t)
      | none => .error .notImplemented
  | _ => .ok none

/-- `jacobian` of the layers (nnj/reshape.py:21-34 for Reshape and Flatten, `ones_like(x)`;
nnj/upsample.py:16-36; the other classes as above). -/
def Leaf.jacobian (e : Env) (l : Leaf) (x : DT) (val : Option DT) (wrt : Wrt) :
    DRes (Option DT) :=
  match l with
  | .linear w b => linJacobian e w b x val wrt
  | .conv w b v => convJacobian e w b v x val wrt
  | .act k => actDiag k x val wrt
  | .reshape => match wrt with
      | .input => .ok (some (.const x.ty))
      | _ => .ok none
  | .l2norm => l2Jacobian e x wrt
  | .pool => poolPick (.const e.dflt) wrt
  | .upsample => upSum e (.const e.dflt) wrt

/-- `jvp` of the layers: nnj/linear.py:40, nnj/conv2d.py:64-80, nnj/upsample.py:43-58,
nnj/maxpool2d.py:60-75, and the classes above. -/
def Leaf.jvp (e : Env) (l : Leaf) (x : DT) (val : Option DT) (v : DT) (wrt : Wrt) :
    DRes (Option DT) :=
  match l with
  | .linear w b => linJvp e w b x val v wrt
  | .conv _ _ _ => match wrt with
      | .other => .ok none
      | _ => .error .notImplemented
  | .act k => actProd k x val v wrt
  | .reshape => reProd (some v) wrt
  | .l2norm => l2Prod e x v wrt
  | .pool | .upsample => match wrt with
      | .input => .error .notImplemented
      | _ => .ok none

/-- `jmp` of the layers; without a matrix it is `jacobian`, except for Reshape and Flatten and for
L2Norm (`None` in `einsum`): nnj/linear.py:77, nnj/conv2d.py:93-101, nnj/maxpool2d.py:87,
nnj/upsample.py:71, nnj/abstract_diagonal_jacobian.py:62, nnj/reshape.py:69. -/
def Leaf.jmp (e : Env) (l : Leaf) (x : DT) (val : Option DT) (m : Option DT) (wrt : Wrt) :
    DRes (Option DT) :=
  match m, l with
  | m, .reshape => reProd m wrt
  | none, .l2norm => do
      match ← l2Jacobian e x wrt with
      | none => .ok none
      | some _ => .error .noneUsed
  | none, l => l.jacobian e x val wrt
  | some v, .linear w b => linJvp e w b x val v wrt
  | some _, .conv _ _ _ => match wrt with
      | .other => .ok none
      | _ => .error .notImplemented
  | some v, .act k => actProd k x val v wrt
  | some v, .l2norm => l2Prod e x v wrt
  | some v, .pool => poolPick v wrt
  | some _, .upsample => match wrt with
      | .input => .error .notImplemented
      | _ => .ok none

/-- `jmjTp` of the layers; not implemented for Conv2d, MaxPool2d and Upsample
(nnj/conv2d.py:117-150, nnj/maxpool2d.py:123-143, nnj/upsample.py:93-110); nnj/reshape.py:78-106. -/
def Leaf.jmjTp (e : Env) (l : Leaf) (x : DT) (val : Option DT) (m : Option DT) (wrt : Wrt)
    (fromDiag toDiag : Bool) : DRes (Option DT) :=
  match l with
  | .linear w b => linJmjTp e w b x val m wrt fromDiag toDiag
  | .conv w b v => do
      let _ ← (Leaf.conv w b v).valOr e x val
      match wrt with
      | .other => .ok none
      | _ => .error .notImplemented
  | .act k => actMetric k x val m wrt
  | .reshape => reProd (some (m.getD (.const x.ty))) wrt
  | .l2norm => l2Metric e x m wrt
  | .pool | .upsample => match wrt with
      | .input => .error .notImplemented
      | _ => .ok none

/-- `vjp` of the layers: nnj/linear.py:167, nnj/conv2d.py:157, nnj/maxpool2d.py:150,
nnj/upsample.py:117, nnj/reshape.py:113, nnj/abstract_diagonal_jacobian.py:114,
nnj/abstract_jacobian.py:139. -/
def Leaf.vjp (e : Env) (l : Leaf) (x : DT) (val : Option DT) (v : DT) (wrt : Wrt) :
    DRes (Option DT) :=
  match l with
  | .linear w b => linVjp e w b x v wrt
  | .conv w b vm => convVjp e w b vm x val v wrt
  | .act k => actProd k x val v wrt
  | .reshape => reProd (some v) wrt
  | .l2norm => l2Prod e x v wrt
  | .pool => poolScatter e v wrt
  | .upsample => upSum e v wrt

/-- `mjp` of the layers; without a matrix it is `jacobian` as for `jmp`: nnj/linear.py:196,
nnj/conv2d.py:260, nnj/maxpool2d.py:193, nnj/upsample.py:161,
nnj/abstract_diagonal_jacobian.py:140, nnj/reshape.py:145, nnj/abstract_jacobian.py:172. -/
def Leaf.mjp (e : Env) (l : Leaf) (x : DT) (val : Option DT) (m : Option DT) (wrt : Wrt) :
    DRes (Option DT) :=
  match m, l with
  | m, .reshape => reProd m wrt
  | none, .l2norm => do
      match ← l2Jacobian e x wrt with
      | none => .ok none
      | some _ => .error .noneUsed
  | none, l => l.jacobian e x val wrt
  | some v, l => l.vjp e x val v wrt

/-- `jTmjp` of the layers: nnj/linear.py:213, nnj/conv2d.py:367, nnj/maxpool2d.py:220,
nnj/upsample.py:192, nnj/reshape.py:153-180, nnj/abstract_diagonal_jacobian.py:149,
nnj/abstract_jacobian.py:187. -/
def Leaf.jTmjp (e : Env) (l : Leaf) (x : DT) (val : Option DT) (m : Option DT) (wrt : Wrt)
    (fromDiag toDiag : Bool) : DRes (Option DT) :=
  match l with
  | .linear w b => linJTmjp e w b x val m wrt fromDiag toDiag
  | .conv w b v => convJTmjp e w b v x val m wrt fromDiag toDiag
  | .act k => actMetric k x val m wrt
  | .reshape => reProd (some (m.getD (.const x.ty))) wrt
  | .l2norm => l2Metric e x m wrt
  | .pool => poolJTmjp e x (val.getD x) m wrt fromDiag toDiag
  | .upsample => upJTmjp e (val.getD x) m wrt fromDiag toDiag

mutual
/-- A network: a layer, `Sequential(...)` or `SkipConnection(...)`, nested at will
(nnj/sequential.py:9, nnj/skipconnection.py:10-15). -/
inductive DNet where
  | leaf (l : Leaf)
  | seq (c : DChain)
  | skip (c : DChain)
/-- The modules of a Sequential, first to last (nnj/sequential.py:11). -/
inductive DChain where
  | nil
  | cons (n : DNet) (c : DChain)
end

/-- Whether the layer list is empty; used for "`k == len(self._modules_list) - 1`",
nnj/sequential.py:156. -/
def DChain.isNil : DChain → Bool
  | .nil => true
  | .cons _ _ => false

mutual
/-- Whether `_n_params` is not zero (a Linear or Conv2d inside), nnj/sequential.py:16-17,
nnj/skipconnection.py:15. -/
def DNet.parametric : DNet → Bool
  | .leaf (.linear _ _) => true
  | .leaf (.conv _ _ _) => true
  | .leaf _ => false
  | .seq c => c.parametric
  | .skip c => c.parametric
/-- The same for the modules of a Sequential, nnj/sequential.py:16-17. -/
def DChain.parametric : DChain → Bool
  | .nil => false
  | .cons n c => n.parametric || c.parametric
end

mutual
/-- `forward`: nnj/sequential.py:30-36, nnj/skipconnection.py:17-18. -/
def DNet.fwd (e : Env) : DNet → DT → DRes DT
  | .leaf l, x => l.fwd e x
  | .seq c, x => c.fwd e x
  | .skip c, x => do .ok (x.cat (← c.fwd e x))
/-- The loop of nnj/sequential.py:33-35. -/
def DChain.fwd (e : Env) : DChain → DT → DRes DT
  | .nil, x => .ok x
  | .cons n c, x => do c.fwd e (← n.fwd e x)
end

/-- `torch.cat(ms)` over a list that may be empty, `None` then (nnj/sequential.py:246, 288). -/
def catList : List DT → Option DT
  | [] => none
  | t :: ts => some (ts.foldl DT.cat t)

/-- `[m_k] + ms` if `m_k` is not None (nnj/sequential.py:239-240, 281-282). -/
def pushSome : Option DT → List DT → List DT
  | some t, ts => t :: ts
  | none, ts => ts

/-- `if jvp_from_layer is not None: jvp = jvp_from_layer if jvp is None else jvp += ..`
(nnj/sequential.py:72-76). -/
def accum : Option DT → Option DT → Option DT
  | a, none => a
  | none, some f => some f
  | some a, some f => some (a.addInPlace f)

mutual
/-- `vjp`: nnj/sequential.py:216-248, nnj/skipconnection.py:140-158. -/
def DNet.vjp (e : Env) : DNet → DT → Option DT → DT → Wrt → DRes (Option DT)
  | .leaf l, x, val, v, wrt => l.vjp e x val v wrt
  | .seq c, x, _, v, wrt => c.vjp e x v wrt
  | .skip c, x, _, v, wrt => do
      let r ← c.vjp e x v wrt
      match wrt with
      | .input => .ok (some (v.arith (← need r)))
      | .weight => .ok r
      | .other => .ok none
/-- `Sequential.vjp`, nnj/sequential.py:216-248. -/
def DChain.vjp (e : Env) : DChain → DT → DT → Wrt → DRes (Option DT)
  | c, x, v, .input => do .ok (some (← c.vjpIn e x v))
  | c, x, v, .weight => do .ok (catList (← c.vjpW e true x v).1)
  | _, _, _, .other => .error .assertion
/-- The loop of nnj/sequential.py:234-244 for `wrt="input"`, with the forward pass of line 229. -/
def DChain.vjpIn (e : Env) : DChain → DT → DT → DRes DT
  | .nil, _, v => .ok v
  | .cons n c, x, v => do
      let val ← n.fwd e x
      let v ← c.vjpIn e val v
      need (← n.vjp e x (some val) v .input)
/-- The loop of nnj/sequential.py:234-244 for `wrt="weight"`; the first module is not
backpropagated through (line 241-242). -/
def DChain.vjpW (e : Env) (first : Bool) : DChain → DT → DT → DRes (List DT × DT)
  | .nil, _, v => .ok ([], v)
  | .cons n c, x, v => do
      let val ← n.fwd e x
      let r ← c.vjpW e false val v
      let vk ← n.vjp e x (some val) r.2 .weight
      let vs := pushSome vk r.1
      if first then .ok (vs, r.2)
      else .ok (vs, ← need (← n.vjp e x (some val) r.2 .input))
end

mutual
/-- `mjp`: nnj/sequential.py:251-290, nnj/skipconnection.py:161-180; without a matrix a
SkipConnection returns its `jacobian`, nnj/skipconnection.py:21-37. -/
def DNet.mjp (e : Env) : DNet → DT → Option DT → Option DT → Wrt → DRes (Option DT)
  | .leaf l, x, val, m, wrt => l.mjp e x val m wrt
  | .seq c, x, _, m, wrt => c.mjp e x m wrt
  | .skip c, x, _, none, wrt => do
      let j ← c.mjp e x none wrt
      match wrt with
      | .other => .ok none
      | _ => .ok (some ((DT.const x.ty).cat (← need j)))
  | .skip c, x, _, some m, wrt => do
      let r ← c.mjp e x (some m) wrt
      match wrt with
      | .input => .ok (some (m.arith (← need r)))
      | .weight => .ok r
      | .other => .ok none
/-- `Sequential.mjp`, nnj/sequential.py:251-290; the identity has the dtype of `x`. -/
def DChain.mjp (e : Env) : DChain → DT → Option DT → Wrt → DRes (Option DT)
  | c, x, m, .input => c.mjpIn e x (some (m.getD (.const x.ty)))
  | c, x, m, .weight => do .ok (catList (← c.mjpW e true x (some (m.getD (.const x.ty)))).1)
  | _, _, _, .other => .error .assertion
/-- The loop of nnj/sequential.py:276-286 for `wrt="input"`. -/
def DChain.mjpIn (e : Env) : DChain → DT → Option DT → DRes (Option DT)
  | .nil, _, m => .ok m
  | .cons n c, x, m => do
      let val ← n.fwd e x
      let m ← c.mjpIn e val m
      n.mjp e x (some val) m .input
/-- The loop of nnj/sequential.py:276-286 for `wrt="weight"`. -/
def DChain.mjpW (e : Env) (first : Bool) : DChain → DT → Option DT →
    DRes (List DT × Option DT)
  | .nil, _, m => .ok ([], m)
  | .cons n c, x, m => do
      let val ← n.fwd e x
      let r ← c.mjpW e false val m
      let mk ← n.mjp e x (some val) r.2 .weight
      let ms := pushSome mk r.1
      if first then .ok (ms, r.2)
      else .ok (ms, ← n.mjp e x (some val) r.2 .input)
end

/-- `jacobian`: nnj/sequential.py:39-41 (`mjp` without a matrix), nnj/skipconnection.py:21-37. -/
def DNet.jacobian (e : Env) : DNet → DT → Option DT → Wrt → DRes (Option DT)
  | .leaf l, x, val, wrt => l.jacobian e x val wrt
  | n, x, val, wrt => n.mjp e x val none wrt

mutual
/-- `jvp`: nnj/sequential.py:48-81, nnj/skipconnection.py:44-64. -/
def DNet.jvp (e : Env) : DNet → DT → Option DT → DT → Wrt → DRes (Option DT)
  | .leaf l, x, val, v, wrt => l.jvp e x val v wrt
  | .seq c, x, _, v, wrt => c.jvp e x v wrt
  | .skip c, x, _, v, wrt => do
      let r ← c.jvp e x v wrt
      match wrt with
      | .input => .ok (some (v.cat (← need r)))
      | .weight => .ok (some ((DT.const x.ty).cat (← need r)))
      | .other => .ok none
/-- `Sequential.jvp`, nnj/sequential.py:48-81. -/
def DChain.jvp (e : Env) : DChain → DT → DT → Wrt → DRes (Option DT)
  | c, x, v, .input => do .ok (some (← c.jvpIn e x v))
  | c, x, v, .weight => c.jvpW e x v none
  | _, _, _, .other => .error .assertion
/-- The loop of nnj/sequential.py:62-66. -/
def DChain.jvpIn (e : Env) : DChain → DT → DT → DRes DT
  | .nil, _, v => .ok v
  | .cons n c, x, v => do
      let val ← n.fwd e x
      let v ← need (← n.jvp e x (some val) v .input)
      c.jvpIn e val v
/-- The loop of nnj/sequential.py:68-81. -/
def DChain.jvpW (e : Env) : DChain → DT → DT → Option DT → DRes (Option DT)
  | .nil, _, _, a => .ok a
  | .cons n c, x, v, a => do
      let val ← n.fwd e x
      let a ← (match a with
        | none => .ok none
        | some t => n.jvp e x (some val) t .input : DRes (Option DT))
      let f ← n.jvp e x (some val) v .weight
      c.jvpW e val v (accum a f)
end

mutual
/-- `jmp`: nnj/sequential.py:84-126, nnj/skipconnection.py:67-86. -/
def DNet.jmp (e : Env) : DNet → DT → Option DT → Option DT → Wrt → DRes (Option DT)
  | .leaf l, x, val, m, wrt => l.jmp e x val m wrt
  | .seq c, x, _, some m, wrt => c.jmp e x m wrt
  | .seq c, x, _, none, wrt => c.mjp e x none wrt
  | .skip c, x, val, none, wrt => (DNet.skip c).mjp e x val none wrt
  | .skip c, x, _, some m, wrt => do
      let r ← c.jmp e x m wrt
      match wrt with
      | .input => .ok (some (m.cat (← need r)))
      | .weight => .ok (some ((DT.const x.ty).cat (← need r)))
      | .other => .ok none
/-- `Sequential.jmp` with a matrix, nnj/sequential.py:84-126. -/
def DChain.jmp (e : Env) : DChain → DT → DT → Wrt → DRes (Option DT)
  | c, x, m, .input => c.jmpIn e x (some m)
  | c, x, m, .weight => c.jmpW e x m none
  | _, _, _, .other => .error .assertion
/-- The loop of nnj/sequential.py:101-105. -/
def DChain.jmpIn (e : Env) : DChain → DT → Option DT → DRes (Option DT)
  | .nil, _, m => .ok m
  | .cons n c, x, m => do
      let val ← n.fwd e x
      let m ← n.jmp e x (some val) m .input
      c.jmpIn e val m
/-- The loop of nnj/sequential.py:107-126. -/
def DChain.jmpW (e : Env) : DChain → DT → DT → Option DT → DRes (Option DT)
  | .nil, _, _, a => .ok a
  | .cons n c, x, m, a => do
      let val ← n.fwd e x
      let a ← (match a with
        | none => .ok none
        | some t => n.jmp e x (some val) (some t) .input : DRes (Option DT))
      let f ← n.jmp e x (some val) (some m) .weight
      c.jmpW e val m (accum a f)
end

/-- What `jTmjp` returns: `None`, a tensor, or a list of tensors (nnj/sequential.py:341-347). -/
inductive JT where
  | none
  | one (t : DT)
  | many (ts : List DT)

/-- The result of a layer.  E.g. nnj/linear.py:213. -/
def JT.ofOpt : Option DT → JT
  | some t => .one t
  | .none => .none

/-- A result that is passed on as a matrix, nnj/sequential.py:331-339. -/
def JT.toOpt : JT → DRes (Option DT)
  | .none => .ok .none
  | .one t => .ok (some t)
  | .many _ => .error .noneUsed

/-- `[m_k] + ms` if `m_k` is not None; lists in lists written as one list
(nnj/sequential.py:327-329). -/
def JT.push : JT → List DT → List DT
  | .none, ts => ts
  | .one t, ts => t :: ts
  | .many l, ts => l ++ ts

/-- The assertion of nnj/sequential.py:305 and nnj/skipconnection.py:196. -/
def checkFlags (fromDiag toDiag db : Bool) : DRes Unit :=
  if !db || (fromDiag && toDiag) then .ok () else .error .assertion

mutual
/-- `jTmjp`: nnj/sequential.py:293-347, nnj/skipconnection.py:183-226. -/
def DNet.jTmjp (e : Env) : DNet → DT → Option DT → Option DT → Wrt → Bool → Bool → Bool →
    DRes JT
  | .leaf l, x, val, m, wrt, f, t, _ => do .ok (.ofOpt (← l.jTmjp e x val m wrt f t))
  | .seq c, x, _, m, wrt, f, t, db => c.jTmjp e x m wrt f t db
  | .skip c, x, val, m, wrt, f, t, db => do
      checkFlags f t db
      let val ← (match val with
        | some v => .ok v
        | none => (DNet.skip c).fwd e x : DRes DT)
      let m' := m.getD (.const val.ty)
      let f := f || m.isNone
      let r ← c.jTmjp e x (some m') wrt f t db
      match wrt, f with
      | .input, true => .ok (.one ((← need (← r.toOpt)).arith m'))
      | .input, false => do
          let mj ← need (← c.mjp e x (some m') wrt)
          let jm ← need (← c.mjp e x (some m') wrt)
          .ok (.one ((((← need (← r.toOpt)).arith mj).arith jm).arith m'))
      | .weight, _ => .ok r
      | .other, _ => .ok .none
/-- `Sequential.jTmjp`, nnj/sequential.py:293-347. -/
def DChain.jTmjp (e : Env) : DChain → DT → Option DT → Wrt → Bool → Bool → Bool → DRes JT
  | c, x, m, wrt, f, t, db => do
      checkFlags f t db
      let m' := m.getD (.const x.ty)
      let f := f || m.isNone
      match wrt with
      | .input => do .ok (.ofOpt (← c.jTIn e true x (some m') f t db))
      | .weight => do
          let r ← c.jTW e true x (some m') f t db
          if r.1.isEmpty then .ok .none
          else if t then .ok (.ofOpt (catList r.1)) else .ok (.many r.1)
      | .other => do
          let _ ← c.jTIn e true x (some m') f t db
          .ok .none
/-- The loop of nnj/sequential.py:314-339 for `wrt="input"`. -/
def DChain.jTIn (e : Env) (first : Bool) : DChain → DT → Option DT → Bool → Bool → Bool →
    DRes (Option DT)
  | .nil, _, m, _, _, _ => .ok m
  | .cons n c, x, m, f, t, db => do
      let val ← n.fwd e x
      let m ← c.jTIn e false val m f t db
      (← n.jTmjp e x (some val) m .input (if c.isNil then f else db) (if first then t else db)
        db).toOpt
/-- The loop of nnj/sequential.py:314-339 for `wrt="weight"`. -/
def DChain.jTW (e : Env) (first : Bool) : DChain → DT → Option DT → Bool → Bool → Bool →
    DRes (List DT × Option DT)
  | .nil, _, m, _, _, _ => .ok ([], m)
  | .cons n c, x, m, f, t, db => do
      let val ← n.fwd e x
      let r ← c.jTW e false val m f t db
      let mk ← n.jTmjp e x (some val) r.2 .weight (if c.isNil then f else db) t db
      let ms := mk.push r.1
      if first then .ok (ms, r.2)
      else
        .ok (ms, ← (← n.jTmjp e x (some val) r.2 .input (if c.isNil then f else db) db
          db).toOpt)
end

mutual
/-- `jmjTp`: nnj/sequential.py:129-209, nnj/skipconnection.py:89-133. -/
def DNet.jmjTp (e : Env) : DNet → DT → Option DT → Option DT → Wrt → Bool → Bool → Bool →
    DRes (Option DT)
  | .leaf l, x, val, m, wrt, f, t, _ => l.jmjTp e x val m wrt f t
  | .seq c, x, _, m, wrt, f, t, db => c.jmjTp e x m wrt f t db
  | .skip c, x, _, m, wrt, f, t, db => do
      checkFlags f t db
      let _ ← (DNet.skip c).fwd e x
      let r ← c.jmjTp e x m wrt f t db
      match wrt, t with
      | .input, true => .ok (some ((← need m).cat (← need r)))
      | .input, false => do
          let m ← need m
          let jm ← need (← c.jmp e x m wrt)
          .ok (some ((m.cat jm).cat (jm.cat (← need r))))
      | .weight, _ => .ok (some ((DT.const x.ty).cat (← need r)))
      | .other, _ => .ok none
/-- `Sequential.jmjTp`, nnj/sequential.py:129-209; the default matrices have the dtype of `x`. -/
def DChain.jmjTp (e : Env) : DChain → DT → Option DT → Wrt → Bool → Bool → Bool →
    DRes (Option DT)
  | c, x, m, wrt, f, t, db => do
      checkFlags f t db
      let m' := m.getD (.const x.ty)
      let f := f || m.isNone
      match wrt with
      | .input => c.jmjTpIn e x (some m') f t db
      | .weight => c.jmjTpW e x m' none f t db
      | .other => do
          let _ ← c.fwd e x
          .ok none
/-- The loop of nnj/sequential.py:153-163. -/
def DChain.jmjTpIn (e : Env) : DChain → DT → Option DT → Bool → Bool → Bool → DRes (Option DT)
  | .nil, _, m, _, _, _ => .ok m
  | .cons n c, x, m, f, t, db => do
      let val ← n.fwd e x
      let m ← n.jmjTp e x (some val) m .input f (if c.isNil then t else db) db
      c.jmjTpIn e val m db t db
/-- The loop of nnj/sequential.py:183-209. -/
def DChain.jmjTpW (e : Env) : DChain → DT → DT → Option DT → Bool → Bool → Bool →
    DRes (Option DT)
  | .nil, _, _, a, _, _, _ => .ok a
  | .cons n c, x, m, a, f, t, db => do
      let val ← n.fwd e x
      let a ← (match a with
        | none => .ok none
        | some s => n.jmjTp e x (some val) (some s) .input db (if c.isNil then t else db) db :
          DRes (Option DT))
      if n.parametric then
        let fl ← n.jmjTp e x (some val) (some m) .weight f (if c.isNil then t else db) db
        c.jmjTpW e val m (accum a fl) f t db
      else c.jmjTpW e val m a f t db
end

mutual
/-- `parameters()`: weight before bias, layer by layer (nnj/abstract_jacobian.py:243). -/
def DNet.params : DNet → List Nat
  | .leaf (.linear w b) => w :: b.toList
  | .leaf (.conv w b _) => w :: b.toList
  | .leaf _ => []
  | .seq c => c.params
  | .skip c => c.params
/-- The same for the modules of a Sequential. nnj/abstract_jacobian.py:243. -/
def DChain.params : DChain → List Nat
  | .nil => []
  | .cons n c => n.params ++ c.params
end

/-- `get_weight`, nnj/abstract_jacobian.py:241-243: the parameters concatenated. -/
def DNet.getWeight (e : Env) (n : DNet) : Option DT := catList (n.params.map e.P)

/-- `set_weight`, nnj/abstract_jacobian.py:244-246: `vector_to_parameters` replaces the `.data` of
each parameter by a slice of the vector, which has the dtype of the vector. -/
def DNet.setWeight (n : DNet) (w : DT) (e : Env) : Env :=
  { e with par := fun i => if i ∈ n.params then w.ty else e.par i }

/-- `LogGaussian.gradient` before the aggregation over the batch (nnj/log_likelihoods.py:45-67;
`sum` and `mean` keep the dtype): `target - val`, then `vjp`. -/
def gaussGradient (e : Env) (n : DNet) (x target : DT) (wrt : Wrt) : DRes (Option DT) := do
  let val ← n.fwd e x
  n.vjp e x (some val) (target.arith val) wrt

/-- `LogBinaryBernoulli.gradient` and `LogBernoulli.gradient` (nnj/log_likelihoods.py:117-140,
186-211): the probabilities are computed from `val` by elementwise functions. -/
def bernoulliGradient (e : Env) (n : DNet) (x target : DT) (wrt : Wrt) : DRes (Option DT) := do
  let val ← n.fwd e x
  n.vjp e x (some val) (target.arith (val.unary.arith val.unary)) wrt

/-- `LogGaussian.ggn` (nnj/log_likelihoods.py:69-95): the matrix is `-ones_like(val)`. -/
def gaussGgn (e : Env) (n : DNet) (x : DT) (wrt : Wrt) (t db : Bool) : DRes JT := do
  let val ← n.fwd e x
  n.jTmjp e x (some val) (some (.const val.ty)) wrt true t db

end NNJ.Dt
