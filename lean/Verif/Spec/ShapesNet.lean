import Verif.Spec.Calls
import Verif.Spec.Shapes

/-!
# Networks in any number system
-/

namespace NNJ

mutual
/-- there is no MaxPool2d inside -/
def Net.NoPool : {s s' : List Nat} → {n k p : Nat} → Net s n s' k p → Prop
  | _, _, _, _, _, .linear _ _ _ _ _ _ _ => True
  | _, _, _, _, _, .act _ _ _ _ _ _ => True
  | _, _, _, _, _, .flatten _ _ _ _ _ => True
  | _, _, _, _, _, .reshape _ _ _ _ _ _ _ _ _ => True
  | _, _, _, _, _, .l2norm _ _ _ _ _ _ _ => True
  | _, _, _, _, _, .conv _ _ _ _ => True
  | _, _, _, _, _, .upsample _ _ _ _ _ _ _ _ _ => True
  | _, _, _, _, _, .maxpool _ _ => False
  | _, _, _, _, _, .seq _ c => c.NoPool
  | _, _, _, _, _, .skip _ _ ch => ch.NoPool
def Chain.NoPool : {s s' : List Nat} → {n k p l : Nat} → Chain s n s' k p l → Prop
  | _, _, _, _, _, _, .nil _ _ _ _ => True
  | _, _, _, _, _, _, .snoc c m => c.NoPool ∧ m.NoPool
end

section
variable {β : Type} [Zero β] [One β] [Add β] [Sub β] [Mul β] [Neg β] [Div β] [NatCast β] [LT β] [DecidableLT β] [Trans β]

/-- The same activation on numbers of type `β`; `q` converts the constants, `fn` the elementwise functions of user-written layers. -/
def Act.layerIn (q : ℝ → β) (fn : (ℝ → ℝ) → β → β) : Act → PureLayer β
  | .relu => Activation.relu
  | .sigmoid => Activation.sigmoid
  | .tanh => Activation.tanh
  | .sinusoidal => Activation.sinusoidal
  | .softplus b t => Activation.softplus (q b) (q t)
  | .truncExp => Activation.truncExp
  | .custom f g => Activation.custom (fn f) fun a => fn (g 0)

mutual
/-- The same constructor calls, on numbers of type `β`. -/
def Net.modIn (q : ℝ → β) (fn : (ℝ → ℝ) → β → β) : {s s' : List Nat} → {n k p : Nat} → Net s n s' k p → Mod β
  | _, _, _, _, _, .linear id wId bId i o _ _ => Linear.mod id wId bId i o
  | _, _, _, _, _, .act a id _ _ _ _ => Activation.toMod (a.layerIn q fn) id
  | _, _, _, _, _, .flatten id _ _ _ _ => Resh.flatten id
  | _, _, _, _, _, .reshape id _ _ _ _ _ _ z _ => Resh.reshape z id
  | _, _, _, _, _, .l2norm id eps _ _ _ _ _ => L2Norm.mod (q eps) id
  | _, _, _, _, _, .conv id wId bId g => Conv2d.mod (g.cfg bId) id wId (bId.getD 0)
  | _, _, _, _, _, .upsample id _ _ _ r _ _ _ _ => Upsample.mod ⟨r, 1⟩ id
  | _, _, _, _, _, .maxpool id g => MaxPool2d.mod g.a id
  | _, _, _, _, _, .seq id c => Sequential.mod id true (c.modsIn q fn)
  | _, _, _, _, _, .skip id fid ch => SkipConnection.mod id (Sequential.mod fid true (ch.modsIn q fn))
def Chain.modsIn (q : ℝ → β) (fn : (ℝ → ℝ) → β → β) : {s s' : List Nat} → {n k p l : Nat} → Chain s n s' k p l → List (Mod β)
  | _, _, _, _, _, _, .nil _ _ _ _ => []
  | _, _, _, _, _, _, .snoc c m => c.modsIn q fn ++ [m.modIn q fn]
end
end

/-- the product call with its `x` and `val` -/
def Call.toUse (x : Tensor ℝ) (val : Option (Tensor ℝ)) : Call → Use ℝ
  | .forward => .forward x
  | .jacobian w => .jacobian x val w
  | .vjp v w => .vjp x val v w
  | .mjp M w => .mjp x val M w
  | .jvp v w => .jvp x val v w
  | .jmp M w => .jmp x val M w
  | .jTmjp M w fd td db => .jTmjp x val M w fd td db
  | .jmjTp M w fd td db => .jmjTp x val M w fd td db

/-- A number system that knows nothing: all numbers are the same.  Running the program in it computes the shapes and exceptions only. -/
inductive Blank where
  | it
  deriving DecidableEq

namespace Blank
instance : Zero Blank := ⟨it⟩
instance : One Blank := ⟨it⟩
instance : Add Blank := ⟨fun _ _ => it⟩
instance : Sub Blank := ⟨fun _ _ => it⟩
instance : Mul Blank := ⟨fun _ _ => it⟩
instance : Neg Blank := ⟨fun _ => it⟩
instance : Div Blank := ⟨fun _ _ => it⟩
instance : NatCast Blank := ⟨fun _ => it⟩
instance : LT Blank := ⟨fun _ _ => False⟩
instance : DecidableLT Blank := fun _ _ => inferInstanceAs (Decidable False)
instance : Trans Blank := ⟨fun _ => it, fun _ => it, fun _ => it, fun _ => it, fun _ => it, fun _ => it⟩
end Blank

/-- a tensor without its entries -/
def Tensor.blank {α : Type} (t : Tensor α) : Tensor Blank := ⟨t.shape, fun _ => .it⟩

/-- a state without the entries of its tensors -/
def Store.blank {α : Type} (s : Store α) : Store Blank where
  param i := (s.param i).blank
  fmaps i := (s.fmaps i).map (List.map Tensor.blank)
  pidx := s.pidx
  hooks := s.hooks

mutual
/-- a value without the entries of its tensors -/
def PyVal.blank {α : Type} : PyVal α → PyVal Blank
  | .none => .none
  | .tensor t => .tensor t.blank
  | .list vs => .list (PyVal.blanks vs)
def PyVal.blanks {α : Type} : List (PyVal α) → List (PyVal Blank)
  | [] => []
  | v :: vs => v.blank :: PyVal.blanks vs
end

/-- the arguments without the entries of their tensors -/
def Use.blank {α : Type} : Use α → Use Blank
  | .call x => .call x.blank
  | .forward x => .forward x.blank
  | .jacobian x v w => .jacobian x.blank (v.map Tensor.blank) w
  | .jvp x v u w => .jvp x.blank (v.map Tensor.blank) u.blank w
  | .jmp x v u w => .jmp x.blank (v.map Tensor.blank) (u.map Tensor.blank) w
  | .jmjTp x v u w fd td db => .jmjTp x.blank (v.map Tensor.blank) u.blank w fd td db
  | .vjp x v u w => .vjp x.blank (v.map Tensor.blank) u.blank w
  | .mjp x v u w => .mjp x.blank (v.map Tensor.blank) (u.map Tensor.blank) w
  | .jTmjp x v u w fd td db => .jTmjp x.blank (v.map Tensor.blank) (u.map Tensor.blank) w fd td db
  | .getWeight => .getWeight
  | .setWeight v => .setWeight v.blank
  | .gaussianForward c x t => .gaussianForward c x.blank (t.map Tensor.blank)
  | .gaussianGradient c x t w => .gaussianGradient c x.blank (t.map Tensor.blank) w
  | .gaussianGgn c x w => .gaussianGgn c x.blank w
  | .binaryForward c x t => .binaryForward c x.blank (t.map Tensor.blank)
  | .binaryGradient c x t w => .binaryGradient c x.blank (t.map Tensor.blank) w
  | .binaryGgn c x w => .binaryGgn c x.blank w
  | .bernoulliForward c x t => .bernoulliForward c x.blank (t.map Tensor.blank)
  | .bernoulliGradient c x t w => .bernoulliGradient c x.blank (t.map Tensor.blank) w
  | .bernoulliGgn c x w => .bernoulliGgn c x.blank w

end NNJ
