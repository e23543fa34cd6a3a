import Verif.Model.Linear
import Verif.Model.Activations
import Verif.Model.ReshapeFlatten
import Verif.Model.MaxPool2d
import Verif.Model.Conv2d
import Verif.Model.Upsample
import Verif.Model.UpsampleModes
import Verif.Model.SkipConnection
import Verif.Model.L2Norm
import Verif.Torch.Cholesky

/-!
# nnj/utils.py

`convert_to_nnj` reads a torch Sequential (`TorchLayer`s) and builds nnj layers.  The converted layer
holds its own `nn.Parameter` whose `data` is assigned from the torch parameter; since `set_weight` rebinds
`data`, sharing of storage is not observable without in-place updates and the model here copies.
Verif/Model/Storage.lean models the sharing.
-/

namespace NNJ
namespace Utils
open Tensor

variable {α : Type}

/-- A layer of the network given to `convert_to_nnj` (nnj/utils.py:10-12): an object of a torch class,
or of an nnj class with the same name, with the attributes that matter.  `flatten` is `nnj.Flatten`,
`nnFlatten` is `torch.nn.Flatten()`, whose forward pass differs, `nnFlattenAt` is
`torch.nn.Flatten(start_dim, end_dim)`.  `otherPool`: a class whose name contains "Pool" but is not
MaxPool2d; `likelihood`: one of the classes of nnj/log_likelihoods.py; `other`: any class name that nnj
does not export.  Simplified: `nn.Upsample` (of torch or nnj) only on 4-dimensional inputs. -/
inductive TorchLayer (α : Type) where
  | linear (inF outF : Nat) (weight : Tensor α) (bias : Option (Tensor α))
  | conv2d (cfg : Conv2d.Cfg) (weight : Tensor α) (bias : Option (Tensor α))
  | maxPool2d (a : Torch.PoolArgs)
  | otherPool
  | relu
  | sigmoid
  | tanh
  | softplus (beta threshold : α)
  | flatten
  | nnFlatten
  | nnFlattenAt (startDim endDim : Int)
  | upsample (o : Upsample.Options)
  | likelihood
  | sinusoidal
  | truncExp
  | l2norm (eps : α)
  | reshape (dims : List Int)
  | sequential (ls : List (TorchLayer α))
  | skip (ls : List (TorchLayer α))
  | other

section
variable [Zero α] [One α] [Add α] [Sub α] [Neg α] [Mul α] [Div α] [NatCast α] [LT α] [DecidableLT α]
  [Trans α]

/-- `x.flatten(1)`, the forward pass of `torch.nn.Flatten()` (an input of nnj/utils.py:10): IndexError for
fewer than two dimensions; unlike `x.reshape(x.shape[0], -1)` it accepts an empty batch. -/
def nnFlattenForward (x : Tensor α) : Res (Tensor α) :=
  match x.shape with
  | b :: c :: s => .ok ⟨[b, size (c :: s)], x.data⟩
  | _ => .error .index

/-- A dimension given as an integer, negative ones counted from the end; a tensor without dimensions counts as having one.  Used by `x.flatten`, inside
an input of nnj/utils.py:10. -/
def wrapDim (d : Int) (rank : Nat) : Res Nat :=
  let r : Int := max rank 1
  if -r ≤ d ∧ d < r then .ok (if d < 0 then d + r else d).toNat else .error .index

/-- `x.flatten(start_dim, end_dim)`, the forward pass of `torch.nn.Flatten(start_dim, end_dim)` (an input of nnj/utils.py:10): IndexError for a dimension
that does not exist, RuntimeError if the first comes after the last. -/
def nnFlattenAtForward (startDim endDim : Int) (x : Tensor α) : Res (Tensor α) := do
  let i ← wrapDim startDim x.shape.length
  let j ← wrapDim endDim x.shape.length
  if j < i then .error .shape
  else .ok ⟨x.shape.take i ++ size ((x.shape.take (j + 1)).drop i) :: x.shape.drop (j + 1), x.data⟩

mutual
/-- `layer(x)` of the given layer: the forward functions of torch (of nnj/sinusoidal.py:14-16,
nnj/truncexp.py:14-16, nnj/l2norm.py:17-20, nnj/reshape.py:15-18, nnj/skipconnection.py:17-18 for the
classes that only nnj has, nnj/flatten.py:14-17 for `flatten`; the forward method of a likelihood has
a required argument `model`, nnj/log_likelihoods.py:29, so `layer(x)` is a TypeError). -/
def TorchLayer.forward : TorchLayer α → Tensor α → Res (Tensor α)
  | .linear _ _ w b, x => Torch.linear x w b
  | .conv2d cfg w b, x => Torch.conv2d x w b cfg.fwdArgs
  | .maxPool2d a, x => Prod.fst <$> Torch.maxPool2d x a
  | .otherPool, _ => .error .notImplemented
  | .relu, x => .ok (x.map Activation.reluF)
  | .sigmoid, x => .ok (x.map Activation.sigmoidF)
  | .tanh, x => .ok (x.map Trans.tanh)
  | .softplus beta th, x => .ok (x.map (Activation.softplusF beta th))
  | .flatten, x => Resh.flattenForward x
  | .nnFlatten, x => nnFlattenForward x
  | .nnFlattenAt i j, x => nnFlattenAtForward i j x
  | .upsample o, x => o.forward x
  | .likelihood, _ => .error .type
  | .sinusoidal, x => .ok (x.map Trans.sin)
  | .truncExp, x => .ok (x.map Trans.exp)
  | .l2norm eps, x => L2Norm.forward eps x
  | .reshape dims, x => Resh.reshapeForward dims x
  | .sequential ls, x => torchForward ls x
  | .skip ls, x => do
    let v ← torchForward ls x
    cat2 x v 1
  | .other, _ => .error .notImplemented

/-- `nn.Sequential.forward`.  The input of nnj/utils.py:10. -/
def torchForward : List (TorchLayer α) → Tensor α → Res (Tensor α)
  | [], x => .ok x
  | l :: ls, x => do
    let v ← l.forward x
    torchForward ls v
end

/-- `parameter.data = t` (nnj/utils.py:18-19, 26-27) -/
def setParam (i : Nat) (t : Tensor α) : Prog α Unit :=
  Prog.modify fun s => { s with param := fun j => if j = i then t else s.param j }

/-- One iteration of the loop of nnj/utils.py:12-33.  `i` numbers the new layer: its module object is
`2 * i` (`2 * i + 1` for the Sequential inside a SkipConnection), its parameters are `2 * i` and
`2 * i + 1`.  Only the attributes named in the source are copied; everything else takes the default of
the nnj constructor, in particular a nested Sequential becomes `nnj.Sequential()`.
`layer.bias.data` raises AttributeError when `layer.bias is None`, `getattr(nnj, name)` when nnj has no
such class; the constructors of the likelihoods raise AssertionError without arguments
(nnj/log_likelihoods.py:12-18). -/
def convertLayer (i : Nat) : TorchLayer α → Prog α (Mod α)
  | .linear inF outF w b => do
    setParam (2 * i) w
    match b with
    | none => Prog.throw .attribute
    | some b => do
      setParam (2 * i + 1) b
      pure (Linear.mod (2 * i) (2 * i) (some (2 * i + 1)) inF outF)
  | .conv2d cfg w b => do
    let cfg' : Conv2d.Cfg :=
      { inChannels := cfg.inChannels, outChannels := cfg.outChannels, kernel := cfg.kernel }
    let m ← (Conv2d.init cfg' (2 * i) (2 * i) (2 * i + 1) : Res _)
    setParam (2 * i) w
    match b with
    | none => Prog.throw .attribute
    | some b => do
      setParam (2 * i + 1) b
      pure m
  | .maxPool2d a => pure (MaxPool2d.mod { kernel := a.kernel, stride := a.kernel } (2 * i))
  | .otherPool => Prog.throw .attribute
  | .relu => pure (Activation.toMod Activation.relu (2 * i))
  | .sigmoid => pure (Activation.toMod Activation.sigmoid (2 * i))
  | .tanh => pure (Activation.toMod Activation.tanh (2 * i))
  | .softplus _ _ => pure (Activation.toMod (Activation.softplus 1 ((20 : Nat) : α)) (2 * i))
  | .flatten => pure (Resh.flatten (2 * i))
  | .nnFlatten => pure (Resh.flatten (2 * i))
  | .nnFlattenAt _ _ => pure (Resh.flatten (2 * i))
  | .upsample _ => pure (Upsample.Options.mod {} (2 * i))
  | .likelihood => Prog.throw .assertion
  | .sinusoidal => pure (Activation.toMod Activation.sinusoidal (2 * i))
  | .truncExp => pure (Activation.toMod Activation.truncExp (2 * i))
  | .l2norm _ => pure (L2Norm.mod (1 / ((1000000 : Nat) : α)) (2 * i))
  | .reshape _ => pure (Resh.reshape [] (2 * i))
  | .sequential _ => Sequential.init (2 * i) []
  | .skip _ => SkipConnection.init (2 * i) (2 * i + 1) []
  | .other => Prog.throw .attribute

/-- the loop of nnj/utils.py:11-35; the layers are numbered from `i` on -/
def convertLayers : Nat → List (TorchLayer α) → Prog α (List (Mod α))
  | _, [] => pure []
  | i, l :: ls => do
    let m ← convertLayer i l
    let ms ← convertLayers (i + 1) ls
    pure (m :: ms)

/-- nnj/utils.py:10-39; the new layers are numbered from `i` on. -/
def convertToNnj (i : Nat) (ls : List (TorchLayer α)) : Prog α (Mod α) := do
  let ms ← convertLayers i ls
  Sequential.init (2 * (i + ls.length)) ms true

end

variable [Zero α] [One α] [Add α] [Sub α] [Mul α] [Div α] [DecidableEq α]

/-- nnj/utils.py:42-45.  `torch.cholesky_inverse(None)` raises TypeError. -/
def invertBlockDiagonal : PyVal α → Res (PyVal α)
  | .none => .error .type
  | .tensor t => .tensor <$> Torch.choleskyInverse t
  | .list vs => .list <$> go vs
where
  /-- the list comprehension of nnj/utils.py:44 -/
  go : List (PyVal α) → Res (List (PyVal α))
    | [] => .ok []
    | v :: vs => do
      let r ← invertBlockDiagonal v
      let rs ← go vs
      pure (r :: rs)

end Utils
end NNJ
