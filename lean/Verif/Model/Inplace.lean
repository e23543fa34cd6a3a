import Verif.Model.Sequential
import Verif.Model.SkipConnection
import Verif.Model.Activations

/-!
# `ReLU(inplace=True)`

nnj/relu.py:10-12 passes its arguments on to `nn.ReLU`, so `inplace=True` is accepted.  The value model (tensors as immutable values) cannot express it: the
forward pass then overwrites its input, which may be the input of the network or a tensor that a Sequential holds in `feature_maps`
(nnj/sequential.py:27 appends `o.detach()`, which shares the storage of `o`; line 32 stores `x` itself).

Here tensors live in memory cells.  A reference is a cell with a shape.  Only the forward pass is written again: with `val` given, `vjp`, `mjp`, `jTmjp` and
`jacobian` call no `forward` (all calls are guarded by `if val is None`) and write to no tensor, so they are the methods of the value model applied to what the
references hold (`HStore.view`).
-/

namespace NNJ
open Tensor

/-- A tensor object: its storage and its shape.  Contiguous, without offset (outputs of the layers are).  E.g. `o` in nnj/sequential.py:27. -/
structure Ref where
  cell : Nat
  shape : List Nat

/-- Program state as `Store`, with storages `mem`, of which the ones below `next` are in use; feature maps are references (nnj/sequential.py:22, 27, 32). -/
structure HStore (α : Type) where
  mem : Nat → Nat → α
  next : Nat
  param : Nat → Tensor α
  fmaps : Nat → Option (List Ref)
  pidx : Nat → Option (Tensor Nat)
  hooks : Nat → List Nat

variable {α β γ : Type}

/-- what a tensor object holds.  E.g. `self.feature_maps[k]` in nnj/sequential.py:240. -/
def Ref.get (mem : Nat → Nat → α) (r : Ref) : Tensor α := ⟨r.shape, mem r.cell⟩

/-- the state as seen by methods that only read tensors.  E.g. nnj/sequential.py:218-250 with `val` given. -/
def HStore.view (h : HStore α) : Store α where
  param := h.param
  fmaps i := (h.fmaps i).map fun l => l.map (Ref.get h.mem)
  pidx := h.pidx
  hooks := h.hooks

/-- Programs on this state (the `forward` methods and forward hooks in nnj/*.py). -/
def HProg (α β : Type) := HStore α → Res β × HStore α

namespace HProg

/-- `return b` (nnj/*.py) -/
def pure (b : β) : HProg α β := fun h => (.ok b, h)

/-- statement after statement: an exception ends the method (nnj/*.py) -/
def bind (p : HProg α β) (f : β → HProg α γ) : HProg α γ := fun h =>
  match p h with
  | (.ok b, h') => f b h'
  | (.error e, h') => (.error e, h')

/-- sequencing of statements (nnj/*.py) -/
instance : Monad (HProg α) where
  pure := pure
  bind := bind

/-- a new tensor object holding `t`: the result of a torch operation that is not in place.  E.g. `torch.cat` in nnj/skipconnection.py:18. -/
def alloc (t : Tensor α) : HProg α Ref := fun h =>
  (.ok ⟨h.next, t.shape⟩, { h with mem := fun c => if c = h.next then t.data else h.mem c, next := h.next + 1 })

end HProg

/-- A module object, as far as its forward pass is concerned.  E.g. nnj/sequential.py:30-36. -/
structure HMod (α : Type) where
  id : Nat
  forward : Ref → HProg α Ref

namespace HMod

/-- One forward hook, nnj/sequential.py:27: `self.feature_maps.append(o.detach())`. -/
def runHook (v : Ref) (i : Nat) : HProg α Unit := fun h =>
  match h.fmaps i with
  | some l => (.ok (), { h with fmaps := fun j => if j = i then some (l ++ [v]) else h.fmaps j })
  | none => (.error .attribute, h)

/-- All hooks registered on a module, in registration order (nnj/sequential.py:25-28). -/
def runHooks (v : Ref) : List Nat → HProg α Unit
  | [] => HProg.pure ()
  | i :: is => do
    runHook v i
    runHooks v is

/-- `module(x)`: `forward`, then the forward hooks.  E.g. nnj/sequential.py:34. -/
def call (m : HMod α) (x : Ref) : HProg α Ref := do
  let v ← m.forward x
  fun h => runHooks v (h.hooks m.id) h
  pure v

/-- A layer whose output is a new tensor: every layer other than Flatten, Reshape and in-place ReLU (nnj/linear.py:9, nnj/conv2d.py:12, nnj/relu.py:9, ...).
Its forward pass is that of the value model; it may store an attribute (nnj/maxpool2d.py:26). -/
def fresh (m : Mod α) : HMod α where
  id := m.id
  forward x h :=
    match m.forward (x.get h.mem) h.view with
    | (.ok t, s') => HProg.alloc t { h with pidx := s'.pidx }
    | (.error e, s') => (.error e, { h with pidx := s'.pidx })

/-- Flatten and Reshape: `x.reshape(...)` of a contiguous tensor is a view, i.e. shares its storage (nnj/flatten.py:15-17, nnj/reshape.py:16-18). -/
def viewOf (m : Mod α) : HMod α where
  id := m.id
  forward x h :=
    match m.forward (x.get h.mem) h.view with
    | (.ok t, _) => (.ok ⟨x.cell, t.shape⟩, h)
    | (.error e, _) => (.error e, h)

/-- `nnj.ReLU(inplace=True)`, nnj/relu.py:10-12: the input is overwritten and returned. -/
def reluInplace [Zero α] [LT α] [DecidableLT α] (id : Nat) : HMod α where
  id := id
  forward x h := (.ok x, { h with mem := fun c => if c = x.cell then fun i => Activation.reluF (h.mem c i) else h.mem c })

/-- the loop of `forward`, nnj/sequential.py:33-36 -/
def run : List (HMod α) → Ref → HProg α Ref
  | [], x => pure x
  | m :: ms, x => do
    let v ← m.call x
    run ms v

/-- nnj/sequential.py:30-36, with `add_hooks=True` -/
def sequential (id : Nat) (ms : List (HMod α)) : HMod α where
  id := id
  forward x := do
    fun h => (.ok (), { h with fmaps := fun j => if j = id then some [x] else h.fmaps j })
    run ms x

/-- nnj/skipconnection.py:17-18: `torch.cat([x, self._F(x)], dim=1)`; `x` is read when the concatenation runs, i.e. after `self._F(x)`. -/
def skip (id : Nat) (F : HMod α) : HMod α where
  id := id
  forward x := do
    let y ← F.call x
    fun h =>
      match cat2 (x.get h.mem) (y.get h.mem) 1 with
      | .ok t => HProg.alloc t h
      | .error e => (.error e, h)

end HMod
end NNJ
