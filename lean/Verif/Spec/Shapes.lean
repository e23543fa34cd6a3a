import Verif.Model.Linear
import Verif.Model.ReshapeFlatten
import Verif.Model.L2Norm
import Verif.Model.Conv2d
import Verif.Model.Upsample
import Verif.Model.SkipConnection
import Verif.Model.LogLikelihoods

/-!
# The same program in two number systems

`α` and `β` are two types of numbers with the operations that nnj uses, for instance the real numbers and floating point numbers with their infinities
and NaN.  Values of the two runs are compared by their shapes only.
-/

namespace NNJ

variable {α β : Type}

/-- the two tensors have the same shape, whatever their entries are -/
def SameShape (t : Tensor α) (u : Tensor β) : Prop := t.shape = u.shape

/-- both `None`, or two tensors of the same shape -/
def SameOpt : Option (Tensor α) → Option (Tensor β) → Prop
  | none, none => True
  | some t, some u => SameShape t u
  | _, _ => False

mutual
/-- both `None`, or tensors of the same shape, or lists of the same length with such entries -/
def SameVal : PyVal α → PyVal β → Prop
  | .none, .none => True
  | .tensor t, .tensor u => SameShape t u
  | .list vs, .list ws => SameVals vs ws
  | _, _ => False
def SameVals : List (PyVal α) → List (PyVal β) → Prop
  | [], [] => True
  | v :: vs, w :: ws => SameVal v w ∧ SameVals vs ws
  | _, _ => False
end

/-- both return (values related by `R`), or both raise, and the same exception -/
def SameRes {A B : Type} (R : A → B → Prop) : Res A → Res B → Prop
  | .ok a, .ok b => R a b
  | .error e, .error e' => e = e'
  | _, _ => False

/-- parameters of the same shapes, caches with feature maps of the same shapes, the same hooks -/
structure SameStore (s : Store α) (s' : Store β) : Prop where
  param : ∀ i, SameShape (s.param i) (s'.param i)
  fmaps : ∀ i, (s.fmaps i).map (List.map Tensor.shape) = (s'.fmaps i).map (List.map Tensor.shape)
  hooks : s.hooks = s'.hooks

/-- In states of the same shapes, both methods return (values related by `R`) or raise the same exception, and the states they leave have the same shapes
again. -/
def SameProg {A B : Type} (R : A → B → Prop) (p : Prog α A) (q : Prog β B) : Prop :=
  ∀ s s', SameStore s s' → SameRes R (p s).1 (q s').1 ∧ SameStore (p s).2 (q s').2

/-- Every method of the one object, called with arguments of the same shapes in states of the same shapes, does the same as that of the other as far as
exceptions and shapes go. -/
structure SameMod (m : Mod α) (m' : Mod β) : Prop where
  id : m.id = m'.id
  nParams : m.nParams = m'.nParams
  params : m.params = m'.params
  forward : ∀ {x x'}, SameShape x x' → SameProg SameShape (m.forward x) (m'.forward x')
  jacobian : ∀ {x x' v v'} (wrt), SameShape x x' → SameOpt v v' → SameProg SameOpt (m.jacobian x v wrt) (m'.jacobian x' v' wrt)
  jvp : ∀ {x x' v v' u u'} (wrt), SameShape x x' → SameOpt v v' → SameShape u u' → SameProg SameOpt (m.jvp x v u wrt) (m'.jvp x' v' u' wrt)
  jmp : ∀ {x x' v v' u u'} (wrt), SameShape x x' → SameOpt v v' → SameOpt u u' → SameProg SameOpt (m.jmp x v u wrt) (m'.jmp x' v' u' wrt)
  jmjTp : ∀ {x x' v v' u u'} (wrt) (fd td db : Bool), SameShape x x' → SameOpt v v' → SameVal u u' →
    SameProg SameOpt (m.jmjTp x v u wrt fd td db) (m'.jmjTp x' v' u' wrt fd td db)
  vjp : ∀ {x x' v v' u u'} (wrt), SameShape x x' → SameOpt v v' → SameShape u u' → SameProg SameOpt (m.vjp x v u wrt) (m'.vjp x' v' u' wrt)
  mjp : ∀ {x x' v v' u u'} (wrt), SameShape x x' → SameOpt v v' → SameOpt u u' → SameProg SameOpt (m.mjp x v u wrt) (m'.mjp x' v' u' wrt)
  jTmjp : ∀ {x x' v v' u u'} (wrt) (fd td db : Bool), SameShape x x' → SameOpt v v' → SameOpt u u' →
    SameProg SameVal (m.jTmjp x v u wrt fd td db) (m'.jTmjp x' v' u' wrt fd td db)

section
variable [Zero α] [One α] [Add α] [Sub α] [Mul α] [Neg α] [Div α] [NatCast α] [LT α] [DecidableLT α] [Trans α]
variable [Zero β] [One β] [Add β] [Sub β] [Mul β] [Neg β] [Div β] [NatCast β] [LT β] [DecidableLT β] [Trans β]

mutual
/-- The two objects are built by the same constructor calls, in two number systems.  Constants (`eps`, `beta`, `threshold`) need not be the same
numbers, and the elementwise functions of user-written layers need not be related.  `MaxPool2d` is missing. -/
inductive SameCode : Mod α → Mod β → Prop
  | linear (id wId : Nat) (bId : Option Nat) (i o : Nat) : SameCode (Linear.mod id wId bId i o) (Linear.mod id wId bId i o)
  | relu (id : Nat) : SameCode (Activation.toMod Activation.relu id) (Activation.toMod Activation.relu id)
  | sigmoid (id : Nat) : SameCode (Activation.toMod Activation.sigmoid id) (Activation.toMod Activation.sigmoid id)
  | tanh (id : Nat) : SameCode (Activation.toMod Activation.tanh id) (Activation.toMod Activation.tanh id)
  | sinusoidal (id : Nat) : SameCode (Activation.toMod Activation.sinusoidal id) (Activation.toMod Activation.sinusoidal id)
  | truncExp (id : Nat) : SameCode (Activation.toMod Activation.truncExp id) (Activation.toMod Activation.truncExp id)
  | softplus (b t : α) (b' t' : β) (id : Nat) :
      SameCode (Activation.toMod (Activation.softplus b t) id) (Activation.toMod (Activation.softplus b' t') id)
  | custom (f : α → α) (g : α → α → α) (f' : β → β) (g' : β → β → β) (id : Nat) :
      SameCode (Activation.toMod (Activation.custom f g) id) (Activation.toMod (Activation.custom f' g') id)
  | flatten (id : Nat) : SameCode (Resh.flatten id) (Resh.flatten id)
  | reshape (dims : List Int) (id : Nat) : SameCode (Resh.reshape dims id) (Resh.reshape dims id)
  | l2norm (eps : α) (eps' : β) (id : Nat) : SameCode (L2Norm.mod eps id) (L2Norm.mod eps' id)
  | conv (cfg : Conv2d.Cfg) (id wId bId : Nat) : SameCode (Conv2d.mod cfg id wId bId) (Conv2d.mod cfg id wId bId)
  | upsample (f : Upsample.Scale) (id : Nat) : SameCode (Upsample.mod f id) (Upsample.mod f id)
  | seq (id : Nat) (addHooks : Bool) {ms : List (Mod α)} {ms' : List (Mod β)} (h : SameCodes ms ms') :
      SameCode (Sequential.mod id addHooks ms) (Sequential.mod id addHooks ms')
  | skip (id fid : Nat) (addHooks : Bool) {ms : List (Mod α)} {ms' : List (Mod β)} (h : SameCodes ms ms') :
      SameCode (SkipConnection.mod id (Sequential.mod fid addHooks ms)) (SkipConnection.mod id (Sequential.mod fid addHooks ms'))
/-- lists of objects built by the same constructor calls -/
inductive SameCodes : List (Mod α) → List (Mod β) → Prop
  | nil : SameCodes [] []
  | cons {m : Mod α} {m' : Mod β} {ms : List (Mod α)} {ms' : List (Mod β)} (h : SameCode m m') (hs : SameCodes ms ms') :
      SameCodes (m :: ms) (m' :: ms')
end
end

/-- One use of an object of the library, with all its arguments: `m(x)`, one of its methods, or a method of a likelihood object that is given `m`. -/
inductive Use (α : Type) where
  | call (x : Tensor α)
  | forward (x : Tensor α)
  | jacobian (x : Tensor α) (val : Option (Tensor α)) (wrt : Wrt)
  | jvp (x : Tensor α) (val : Option (Tensor α)) (vector : Tensor α) (wrt : Wrt)
  | jmp (x : Tensor α) (val : Option (Tensor α)) (matrix : Option (Tensor α)) (wrt : Wrt)
  | jmjTp (x : Tensor α) (val : Option (Tensor α)) (matrix : PyVal α) (wrt : Wrt) (fromDiag toDiag diagBackprop : Bool)
  | vjp (x : Tensor α) (val : Option (Tensor α)) (vector : Tensor α) (wrt : Wrt)
  | mjp (x : Tensor α) (val : Option (Tensor α)) (matrix : Option (Tensor α)) (wrt : Wrt)
  | jTmjp (x : Tensor α) (val : Option (Tensor α)) (matrix : Option (Tensor α)) (wrt : Wrt) (fromDiag toDiag diagBackprop : Bool)
  | getWeight
  | setWeight (v : Tensor α)
  | gaussianForward (cfg : LogLik.Cfg) (x : Tensor α) (target : Option (Tensor α))
  | gaussianGradient (cfg : LogLik.Cfg) (x : Tensor α) (target : Option (Tensor α)) (wrt : Wrt)
  | gaussianGgn (cfg : LogLik.Cfg) (x : Tensor α) (wrt : Wrt)
  | binaryForward (cfg : LogLik.Cfg) (x : Tensor α) (target : Option (Tensor α))
  | binaryGradient (cfg : LogLik.Cfg) (x : Tensor α) (target : Option (Tensor α)) (wrt : Wrt)
  | binaryGgn (cfg : LogLik.Cfg) (x : Tensor α) (wrt : Wrt)
  | bernoulliForward (cfg : LogLik.Cfg) (x : Tensor α) (target : Option (Tensor α))
  | bernoulliGradient (cfg : LogLik.Cfg) (x : Tensor α) (target : Option (Tensor α)) (wrt : Wrt)
  | bernoulliGgn (cfg : LogLik.Cfg) (x : Tensor α) (wrt : Wrt)

section
variable [Zero α] [One α] [Add α] [Sub α] [Mul α] [Neg α] [Div α] [NatCast α] [Trans α]

/-- Make the call on the object `m`. -/
def Use.run (m : Mod α) : Use α → Prog α (PyVal α)
  | call x => do
    let r ← m.call x
    pure (.tensor r)
  | forward x => do
    let r ← m.forward x
    pure (.tensor r)
  | jacobian x v w => do
    let r ← m.jacobian x v w
    pure (.ofOption r)
  | jvp x v u w => do
    let r ← m.jvp x v u w
    pure (.ofOption r)
  | jmp x v u w => do
    let r ← m.jmp x v u w
    pure (.ofOption r)
  | jmjTp x v u w fd td db => do
    let r ← m.jmjTp x v u w fd td db
    pure (.ofOption r)
  | vjp x v u w => do
    let r ← m.vjp x v u w
    pure (.ofOption r)
  | mjp x v u w => do
    let r ← m.mjp x v u w
    pure (.ofOption r)
  | jTmjp x v u w fd td db => m.jTmjp x v u w fd td db
  | getWeight => do
    let r ← m.getWeight
    pure (.tensor r)
  | setWeight v => do
    m.setWeight v
    pure .none
  | gaussianForward c x t => do
    let r ← LogLik.gaussianForward c m x t
    pure (.ofOption r)
  | gaussianGradient c x t w => LogLik.gaussianGradient c m x t w
  | gaussianGgn c x w => LogLik.gaussianGgn c m x w
  | binaryForward c x t => do
    let r ← LogLik.binaryForward c m x t
    pure (.ofOption r)
  | binaryGradient c x t w => LogLik.binaryGradient c m x t w
  | binaryGgn c x w => LogLik.binaryGgn c m x w
  | bernoulliForward c x t => do
    let r ← LogLik.bernoulliForward c m x t
    pure (.ofOption r)
  | bernoulliGradient c x t w => LogLik.bernoulliGradient c m x t w
  | bernoulliGgn c x w => LogLik.bernoulliGgn c m x w

/-- The results of a history of uses (of several objects), and the state after it.  After an exception the caller goes on. -/
def runUses : List (Mod α × Use α) → Store α → List (Res (PyVal α)) × Store α
  | [], s => ([], s)
  | (m, c) :: h, s =>
    let (r, s) := c.run m s
    let (rs, s) := runUses h s
    (r :: rs, s)
end

/-- the same use, with arguments of the same shapes -/
inductive SameUse : Use α → Use β → Prop
  | call {x x'} : SameShape x x' → SameUse (.call x) (.call x')
  | forward {x x'} : SameShape x x' → SameUse (.forward x) (.forward x')
  | jacobian {x x' v v'} (w) : SameShape x x' → SameOpt v v' → SameUse (.jacobian x v w) (.jacobian x' v' w)
  | jvp {x x' v v' u u'} (w) : SameShape x x' → SameOpt v v' → SameShape u u' → SameUse (.jvp x v u w) (.jvp x' v' u' w)
  | jmp {x x' v v' u u'} (w) : SameShape x x' → SameOpt v v' → SameOpt u u' → SameUse (.jmp x v u w) (.jmp x' v' u' w)
  | jmjTp {x x' v v' u u'} (w fd td db) : SameShape x x' → SameOpt v v' → SameVal u u' →
      SameUse (.jmjTp x v u w fd td db) (.jmjTp x' v' u' w fd td db)
  | vjp {x x' v v' u u'} (w) : SameShape x x' → SameOpt v v' → SameShape u u' → SameUse (.vjp x v u w) (.vjp x' v' u' w)
  | mjp {x x' v v' u u'} (w) : SameShape x x' → SameOpt v v' → SameOpt u u' → SameUse (.mjp x v u w) (.mjp x' v' u' w)
  | jTmjp {x x' v v' u u'} (w fd td db) : SameShape x x' → SameOpt v v' → SameOpt u u' →
      SameUse (.jTmjp x v u w fd td db) (.jTmjp x' v' u' w fd td db)
  | getWeight : SameUse .getWeight .getWeight
  | setWeight {v v'} : SameShape v v' → SameUse (.setWeight v) (.setWeight v')
  | gaussianForward {x x' t t'} (c) : SameShape x x' → SameOpt t t' → SameUse (.gaussianForward c x t) (.gaussianForward c x' t')
  | gaussianGradient {x x' t t'} (c w) : SameShape x x' → SameOpt t t' → SameUse (.gaussianGradient c x t w) (.gaussianGradient c x' t' w)
  | gaussianGgn {x x'} (c w) : SameShape x x' → SameUse (.gaussianGgn c x w) (.gaussianGgn c x' w)
  | binaryForward {x x' t t'} (c) : SameShape x x' → SameOpt t t' → SameUse (.binaryForward c x t) (.binaryForward c x' t')
  | binaryGradient {x x' t t'} (c w) : SameShape x x' → SameOpt t t' → SameUse (.binaryGradient c x t w) (.binaryGradient c x' t' w)
  | binaryGgn {x x'} (c w) : SameShape x x' → SameUse (.binaryGgn c x w) (.binaryGgn c x' w)
  | bernoulliForward {x x' t t'} (c) : SameShape x x' → SameOpt t t' → SameUse (.bernoulliForward c x t) (.bernoulliForward c x' t')
  | bernoulliGradient {x x' t t'} (c w) : SameShape x x' → SameOpt t t' → SameUse (.bernoulliGradient c x t w) (.bernoulliGradient c x' t' w)
  | bernoulliGgn {x x'} (c w) : SameShape x x' → SameUse (.bernoulliGgn c x w) (.bernoulliGgn c x' w)

end NNJ
