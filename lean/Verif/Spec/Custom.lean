import Verif.Spec.GNet
import Verif.Spec.Weights

/-!
# Layers that implement only `forward` and `jacobian`

"This method has to be implemented for every new nnj layer.  Then all other jacobian products are usable."
(nnj/abstract_jacobian.py:29-32).
-/

namespace NNJ
open Matrix

/-- A class that subclasses AbstractJacobian and `nn.Module`, and defines `forward` and `jacobian`, together with the map on one
sample that they are meant to compute. -/
structure Custom (s : List Nat) (n : Nat) (s' : List Nat) (k p : Nat) where
  /-- identity of the module object -/
  id : Nat
  /-- its `nn.Parameter`s -/
  ps : List Nat
  /-- its `forward` and `jacobian`; they may read the parameters in the state -/
  fwd : Store ℝ → Tensor ℝ → Res (Tensor ℝ)
  jac : Store ℝ → AbstractJacobian.Jac ℝ
  /-- the parameters have their shapes -/
  params : Store ℝ → Prop
  /-- map, derivative in the input, derivative in the parameters -/
  f : (Fin p → ℝ) → (Fin n → ℝ) → Fin k → ℝ
  J : (Fin p → ℝ) → (Fin n → ℝ) → Matrix (Fin k) (Fin n) ℝ
  JW : (Fin p → ℝ) → (Fin n → ℝ) → Matrix (Fin k) (Fin p) ℝ
  /-- where it is differentiable -/
  smooth : (Fin p → ℝ) → (Fin n → ℝ) → Prop

section
variable {s s' : List Nat} {n k p : Nat}

/-- the parameter values in the state: the parameters flattened and concatenated -/
noncomputable def Custom.w (C : Custom s n s' k p) (st : Store ℝ) (i : Fin p) : ℝ := flatAt st C.ps i

/-- the module object: every other method is inherited from AbstractJacobian -/
noncomputable def Custom.mod (C : Custom s n s' k p) : Mod ℝ :=
  PureLayer.toMod (fun st => AbstractJacobian.defaults (C.fwd st) (C.jac st)) C.id p C.ps

/-- as a layer of a `GNet` -/
noncomputable def Custom.layer (C : Custom s n s' k p) : ILayer s n s' k p where
  mod := C.mod
  params := C.params
  w := C.w
  f := C.f
  J := C.J
  smooth := C.smooth
  JW := C.JW

/-- What the author of the layer has to get right: `forward` computes `f`, `jacobian` (with or without `val`) returns `J` or `JW`, these
are the derivatives of `f`, and `None` is returned exactly for the weights of a layer that has none. -/
structure Custom.Right (C : Custom s n s' k p) : Prop where
  hn : size s = n
  hk : size s' = k
  npos : 0 < n
  kpos : 0 < k
  params_of : ∀ {st st' : Store ℝ}, (∀ i, (st'.param i).shape = (st.param i).shape) → C.params st → C.params st'
  len : ∀ {st : Store ℝ}, C.params st → flatLen st C.ps = p
  deriv : ∀ w x, C.smooth w x → HasFDerivAt (fun z : (Fin p → ℝ) × (Fin n → ℝ) => C.f z.1 z.2)
    ((linMap (C.JW w x)).comp (ContinuousLinearMap.fst ℝ _ _) + (linMap (C.J w x)).comp (ContinuousLinearMap.snd ℝ _ _)) (w, x)
  forward : ∀ {st : Store ℝ} {B : Nat} {X x}, C.params st → 0 < B → IsBatch x B s n X →
    ∃ t, C.fwd st x = .ok t ∧ IsBatch t B s' k fun b => C.f (C.w st) (X b)
  jacobian : ∀ {st : Store ℝ} {B : Nat} {X x val}, C.params st → 0 < B → IsBatch x B s n X →
    (∀ v ∈ val, IsBatch v B s' k fun b => C.f (C.w st) (X b)) →
    ∃ t, C.jac st x val .input = .ok (some t) ∧ IsMat t B k n fun b => C.J (C.w st) (X b)
  jacobianW : ∀ {st : Store ℝ} {B : Nat} {X x val}, 0 < p → C.params st → 0 < B → IsBatch x B s n X →
    (∀ v ∈ val, IsBatch v B s' k fun b => C.f (C.w st) (X b)) →
    ∃ t, C.jac st x val .weight = .ok (some t) ∧ IsMat t B k p fun b => C.JW (C.w st) (X b)
  jacobianNone : p = 0 → ∀ st x val, C.jac st x val .weight = .ok none
  noNone : ∀ st x val wrt, (0 < p ∨ wrt = .input) → C.jac st x val wrt ≠ .ok none

end

mutual
/-- all other layers inside are of this kind, and right -/
def GNet.Customs : {s s' : List Nat} → {n k p : Nat} → GNet s n s' k p → Prop
  | _, _, _, _, _, .net _ => True
  | _, _, _, _, _, .layer L => ∃ C, Custom.Right C ∧ L = C.layer
  | _, _, _, _, _, .seq _ c => c.Customs
  | _, _, _, _, _, .skip _ _ ch => ch.Customs
def GChain.Customs : {s s' : List Nat} → {n k p l : Nat} → GChain s n s' k p l → Prop
  | _, _, _, _, _, _, .nil _ _ _ _ => True
  | _, _, _, _, _, _, .snoc c m => c.Customs ∧ m.Customs
end

/-- The network object is properly constructed in the state, no module object occurs twice inside it, and its other
layers implement `forward` and `jacobian` right and inherit the rest. -/
structure GNet.COk {s s' : List Nat} {n k p : Nat} (N : GNet s n s' k p) (st : Store ℝ) : Prop where
  nodup : N.ids.Nodup
  wired : N.Wired st
  customs : N.Customs

mutual
/-- identities of the `nn.Parameter`s, in the order of the layers -/
def GNet.paramIds : {s s' : List Nat} → {n k p : Nat} → GNet s n s' k p → List Nat
  | _, _, _, _, _, .net N => N.paramIds
  | _, _, _, _, _, .layer L => L.mod.params
  | _, _, _, _, _, .seq _ c => c.paramIds
  | _, _, _, _, _, .skip _ _ ch => ch.paramIds
def GChain.paramIds : {s s' : List Nat} → {n k p l : Nat} → GChain s n s' k p l → List Nat
  | _, _, _, _, _, _, .nil _ _ _ _ => []
  | _, _, _, _, _, _, .snoc c m => c.paramIds ++ m.paramIds
end

mutual
/-- forward-mode products wrt the input are supported by the networks of library layers inside (see `Net.FwdI`) -/
def GNet.FwdI : {s s' : List Nat} → {n k p : Nat} → GNet s n s' k p → Prop
  | _, _, _, _, _, .net N => N.FwdI
  | _, _, _, _, _, .layer _ => True
  | _, _, _, _, _, .seq _ c => c.FwdI
  | _, _, _, _, _, .skip _ _ ch => ch.FwdI
def GChain.FwdI : {s s' : List Nat} → {n k p l : Nat} → GChain s n s' k p l → Prop
  | _, _, _, _, _, _, .nil _ _ _ _ => True
  | _, _, _, _, _, _, .snoc c m => c.FwdI ∧ m.FwdI
end

mutual
/-- every SkipConnection inside has parameters -/
def GNet.FwdW : {s s' : List Nat} → {n k p : Nat} → GNet s n s' k p → Prop
  | _, _, _, _, _, .net N => N.FwdW
  | _, _, _, _, _, .layer _ => True
  | _, _, _, _, _, .seq _ c => c.FwdW
  | _, _, _, _, _, @GNet.skip _ _ _ _ _ p _ _ _ ch => 0 < p ∧ ch.FwdW
def GChain.FwdW : {s s' : List Nat} → {n k p l : Nat} → GChain s n s' k p l → Prop
  | _, _, _, _, _, _, .nil _ _ _ _ => True
  | _, _, _, _, _, _, .snoc c m => c.FwdW ∧ m.FwdW
end

mutual
/-- how a full weight-space metric `Z` is returned (see `Net.Blocks`) -/
def GNet.Blocks : {s s' : List Nat} → {n k p : Nat} → GNet s n s' k p → PyVal ℝ → (B : Nat) → (Fin B → Matrix (Fin p) (Fin p) ℝ) → Prop
  | _, _, _, _, _, .net N, v, B, Z => N.Blocks v B Z
  | _, _, _, _, p, .layer _, v, B, Z => ∃ t, v = .tensor t ∧ IsMat t B p p Z
  | _, _, _, _, _, .seq _ c, v, B, Z => ∃ vs, v = .list vs ∧ c.Blocks vs B Z
  | _, _, _, _, _, .skip _ _ ch, v, B, Z => ∃ vs, v = .list vs ∧ ch.Blocks vs B Z
def GChain.Blocks : {s s' : List Nat} → {n k p l : Nat} → GChain s n s' k p l → List (PyVal ℝ) → (B : Nat) →
    (Fin B → Matrix (Fin p) (Fin p) ℝ) → Prop
  | _, _, _, _, _, _, .nil _ _ _ _, vs, _, _ => vs = []
  | _, _, _, _, _, _, @GChain.snoc _ _ _ _ _ _ _ q _ c m, vs, B, Z =>
    if q = 0 then c.Blocks vs B fun b => blockUL (Z b)
    else ∃ vs' v, vs = vs' ++ [v] ∧ c.Blocks vs' B (fun b => blockUL (Z b)) ∧ m.Blocks v B fun b => blockLR (Z b)
end

end NNJ
