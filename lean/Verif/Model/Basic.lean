import Verif.Torch.Einsum
import Verif.Torch.Conv

/-!
# Execution model

State: what the Python objects of a program hold (parameters, cached feature maps, cached
pooling indices, registered forward hooks).  Programs are state transformers that may raise; an
exception keeps the state reached so far, as in Python.

Modules are records of methods (`Mod`): composite modules call the methods of their children
through the record, which is Python's dynamic dispatch.  `self._modules` is a list.
-/

namespace NNJ
open Tensor

/-- The `wrt` argument; `other` stands for every string that is neither "input" nor "weight".
E.g. nnj/sequential.py:59. -/
inductive Wrt where
  | input
  | weight
  | other
  deriving DecidableEq, Repr

/-- A Python value where nnj accepts or returns `Union[Tensor, List, None]`.  E.g. nnj/sequential.py:299. -/
inductive PyVal (α : Type) where
  | none
  | tensor (t : Tensor α)
  | list (vs : List (PyVal α))

/-- Program state, indexed by object identity.
* `param i`: the tensor held by the `nn.Parameter` `i`;
* `fmaps i`: attribute `feature_maps` of the Sequential `i` (nnj/sequential.py:22,32); `none` when
  the attribute does not exist;
* `pidx i`: attribute `idx` of the MaxPool2d `i` (nnj/maxpool2d.py:14,26);
* `hooks i`: forward hooks registered on module `i`: the Sequentials whose `feature_maps` each
  output of `i` is appended to (nnj/sequential.py:25-28). -/
structure Store (α : Type) where
  param : Nat → Tensor α
  fmaps : Nat → Option (List (Tensor α))
  pidx : Nat → Option (Tensor Nat)
  hooks : Nat → List Nat

/-- Programs: state in; result or exception, and state, out.  The bodies of the methods of all classes in nnj/*.py. -/
def Prog (α β : Type) := Store α → Res β × Store α

namespace Prog
variable {α β γ : Type}

/-- `return b` (nnj/*.py) -/
def pure (b : β) : Prog α β := fun s => (.ok b, s)

/-- statement after statement: an exception ends the method (nnj/*.py) -/
def bind (p : Prog α β) (f : β → Prog α γ) : Prog α γ := fun s =>
  match p s with
  | (.ok b, s') => f b s'
  | (.error e, s') => (.error e, s')

/-- `raise`.  E.g. nnj/conv2d.py:75. -/
def throw (e : Err) : Prog α β := fun s => (.error e, s)

/-- a computation that does not touch the state.  E.g. the tensor operations in nnj/sequential.py:73. -/
def lift (r : Res β) : Prog α β := fun s => (r, s)

/-- read the state.  E.g. `self.feature_maps` in nnj/sequential.py:240. -/
def read (f : Store α → β) : Prog α β := fun s => (.ok (f s), s)

/-- update the state.  E.g. nnj/maxpool2d.py:26. -/
def modify (f : Store α → Store α) : Prog α Unit := fun s => (.ok (), f s)

/-- sequencing of statements (nnj/*.py) -/
instance : Monad (Prog α) where
  pure := pure
  bind := bind

/-- stateless computations inside methods (nnj/*.py) -/
instance : MonadLift (Except Err) (Prog α) := ⟨lift⟩

/-- `assert c`.  E.g. nnj/sequential.py:59. -/
def assert (c : Bool) : Prog α Unit := if c then pure () else throw .assertion

/-- use of an optional tensor where torch needs a tensor: `None` is a TypeError.  E.g. nnj/skipconnection.py:35. -/
def need (v : Option (Tensor α)) : Prog α (Tensor α) :=
  match v with
  | some t => pure t
  | none => throw .type

end Prog

/-- `assert c` in stateless code.  E.g. nnj/conv2d.py:436. -/
def assertR (c : Bool) : Res Unit := if c then .ok () else .error .assertion

/-- `None` where torch needs a tensor, in stateless code.  E.g. nnj/abstract_jacobian.py:70. -/
def needR {α : Type} (v : Option (Tensor α)) : Res (Tensor α) :=
  match v with
  | some t => .ok t
  | none => .error .type

namespace PyVal
variable {α : Type}

/-- A value of type `Union[Tensor, None]`.  E.g. nnj/linear.py:218. -/
def ofOption : Option (Tensor α) → PyVal α
  | .none => .none
  | .some t => .tensor t

/-- A value used where a tensor or `None` is expected; a list is a TypeError.
E.g. the argument `matrix` of nnj/linear.py:219. -/
def toOption : PyVal α → Res (Option (Tensor α))
  | .none => .ok .none
  | .tensor t => .ok (some t)
  | .list _ => .error .type

/-- A value used where a tensor is expected.  E.g. nnj/sequential.py:345. -/
def toTensor : PyVal α → Res (Tensor α)
  | .tensor t => .ok t
  | _ => .error .type

end PyVal

/-- A module instance.  `id`: object identity; `nParams`: attribute `_n_params`; `params`: the
identities of its `nn.Parameter`s in `named_parameters` order, with repetitions.  The methods are
those of `AbstractJacobian` (nnj/abstract_jacobian.py:7-246) plus `forward`. -/
structure Mod (α : Type) where
  id : Nat
  nParams : Nat
  params : List Nat
  forward : Tensor α → Prog α (Tensor α)
  jacobian : Tensor α → Option (Tensor α) → Wrt → Prog α (Option (Tensor α))
  jvp : Tensor α → Option (Tensor α) → Tensor α → Wrt → Prog α (Option (Tensor α))
  jmp : Tensor α → Option (Tensor α) → Option (Tensor α) → Wrt → Prog α (Option (Tensor α))
  jmjTp : Tensor α → Option (Tensor α) → PyVal α → Wrt → (fromDiag toDiag diagBackprop : Bool) →
    Prog α (Option (Tensor α))
  vjp : Tensor α → Option (Tensor α) → Tensor α → Wrt → Prog α (Option (Tensor α))
  mjp : Tensor α → Option (Tensor α) → Option (Tensor α) → Wrt → Prog α (Option (Tensor α))
  jTmjp : Tensor α → Option (Tensor α) → Option (Tensor α) → Wrt → (fromDiag toDiag diagBackprop : Bool) →
    Prog α (PyVal α)

namespace Mod
variable {α : Type}

/-- One forward hook of nnj/sequential.py:27: `self.feature_maps.append(o.detach())`. -/
def runHook (v : Tensor α) (i : Nat) : Prog α Unit := fun s =>
  match s.fmaps i with
  | some l => (.ok (), { s with fmaps := fun j => if j = i then some (l ++ [v]) else s.fmaps j })
  | none => (.error .attribute, s)

/-- All hooks registered on a module, in registration order.  The hooks of nnj/sequential.py:25-28. -/
def runHooks (v : Tensor α) : List Nat → Prog α Unit
  | [] => Prog.pure ()
  | i :: is => do
    runHook v i
    runHooks v is

/-- `module(x)`: `nn.Module.__call__`, i.e. `forward`, then the forward hooks.  E.g. nnj/sequential.py:34. -/
def call (m : Mod α) (x : Tensor α) : Prog α (Tensor α) := do
  let v ← m.forward x
  let hs ← Prog.read fun s => s.hooks m.id
  runHooks v hs
  pure v

end Mod

/-- A module whose methods neither read nor write caches: each method is a function of its
arguments (all nnj layers except MaxPool2d, Sequential and SkipConnection), for fixed parameter
values.  All classes of nnj/*.py except Sequential, SkipConnection, MaxPool2d and the likelihoods. -/
structure PureLayer (α : Type) where
  forward : Tensor α → Res (Tensor α)
  jacobian : Tensor α → Option (Tensor α) → Wrt → Res (Option (Tensor α))
  jvp : Tensor α → Option (Tensor α) → Tensor α → Wrt → Res (Option (Tensor α))
  jmp : Tensor α → Option (Tensor α) → Option (Tensor α) → Wrt → Res (Option (Tensor α))
  jmjTp : Tensor α → Option (Tensor α) → Option (Tensor α) → Wrt → (fromDiag toDiag diagBackprop : Bool) →
    Res (Option (Tensor α))
  vjp : Tensor α → Option (Tensor α) → Tensor α → Wrt → Res (Option (Tensor α))
  mjp : Tensor α → Option (Tensor α) → Option (Tensor α) → Wrt → Res (Option (Tensor α))
  jTmjp : Tensor α → Option (Tensor α) → Option (Tensor α) → Wrt → (fromDiag toDiag diagBackprop : Bool) →
    Res (Option (Tensor α))

/-- Object with the methods of a pure layer whose parameters are read from the state at each
call.  A list given as `matrix` to `jmjTp` raises (torch ops do not accept lists).
Constructors such as nnj/linear.py:10-12. -/
def PureLayer.toMod {α : Type} (L : Store α → PureLayer α) (id nParams : Nat) (params : List Nat) :
    Mod α where
  id := id
  nParams := nParams
  params := params
  forward x := fun s => ((L s).forward x, s)
  jacobian x val wrt := fun s => ((L s).jacobian x val wrt, s)
  jvp x val v wrt := fun s => ((L s).jvp x val v wrt, s)
  jmp x val m wrt := fun s => ((L s).jmp x val m wrt, s)
  jmjTp x val m wrt fd td db := fun s =>
    ((do let m ← m.toOption
         (L s).jmjTp x val m wrt fd td db), s)
  vjp x val v wrt := fun s => ((L s).vjp x val v wrt, s)
  mjp x val m wrt := fun s => ((L s).mjp x val m wrt, s)
  jTmjp x val m wrt fd td db := fun s =>
    ((do let r ← (L s).jTmjp x val m wrt fd td db
         pure (PyVal.ofOption r)), s)

end NNJ
