import Verif.Model.Inplace
import Verif.Spec.Net
import Verif.Spec.Calls

/-!
# Networks with in-place ReLUs

`ip id`: the ReLU with identity `id` was built with `inplace=True`.
-/

namespace NNJ

/-- is this a ReLU built with `inplace=True`? -/
def Act.inplace (ip : Nat → Bool) (id : Nat) : Act → Bool
  | .relu => ip id
  | _ => false

mutual
/-- the module object, as far as its forward pass is concerned -/
noncomputable def Net.hmod (ip : Nat → Bool) : {s s' : List Nat} → {n k p : Nat} → Net s n s' k p → HMod ℝ
  | _, _, _, _, _, .linear id wId bId i o _ _ => .fresh (Linear.mod id wId bId i o)
  | _, _, _, _, _, .act a id _ _ _ _ => if a.inplace ip id then .reluInplace id else .fresh (Activation.toMod a.layer id)
  | _, _, _, _, _, .flatten id _ _ _ _ => .viewOf (Resh.flatten id)
  | _, _, _, _, _, .reshape id _ _ _ _ _ _ z _ => .viewOf (Resh.reshape z id)
  | _, _, _, _, _, .l2norm id eps _ _ _ _ _ => .fresh (L2Norm.mod eps id)
  | _, _, _, _, _, .conv id wId bId g => .fresh (Conv2d.mod (g.cfg bId) id wId (bId.getD 0))
  | _, _, _, _, _, .upsample id _ _ _ r _ _ _ _ => .fresh (Upsample.mod ⟨r, 1⟩ id)
  | _, _, _, _, _, .maxpool id g => .fresh (MaxPool2d.mod g.a id)
  | _, _, _, _, _, .seq id c => .sequential id (c.hmods ip)
  | _, _, _, _, _, .skip id fid ch => .skip id (.sequential fid (ch.hmods ip))
/-- the module objects of a chain -/
noncomputable def Chain.hmods (ip : Nat → Bool) : {s s' : List Nat} → {n k p l : Nat} → Chain s n s' k p l → List (HMod ℝ)
  | _, _, _, _, _, _, .nil _ _ _ _ => []
  | _, _, _, _, _, _, .snoc c m => c.hmods ip ++ [m.hmod ip]
end

mutual
/-- Does the forward pass overwrite its input, when afterwards the output is overwritten (`out`) or not?  An in-place ReLU does; Flatten and Reshape return a view
of their input; the others leave it alone. -/
def Net.overwrites (ip : Nat → Bool) : {s s' : List Nat} → {n k p : Nat} → Net s n s' k p → (out : Bool) → Bool
  | _, _, _, _, _, .linear _ _ _ _ _ _ _, _ => false
  | _, _, _, _, _, .act a id _ _ _ _, _ => a.inplace ip id
  | _, _, _, _, _, .flatten _ _ _ _ _, out => out
  | _, _, _, _, _, .reshape _ _ _ _ _ _ _ _ _, out => out
  | _, _, _, _, _, .l2norm _ _ _ _ _ _ _, _ => false
  | _, _, _, _, _, .conv _ _ _ _, _ => false
  | _, _, _, _, _, .upsample _ _ _ _ _ _ _ _ _, _ => false
  | _, _, _, _, _, .maxpool _ _, _ => false
  | _, _, _, _, _, .seq _ c, out => c.overwrites ip out
  | _, _, _, _, _, .skip _ _ _, _ => false
def Chain.overwrites (ip : Nat → Bool) : {s s' : List Nat} → {n k p l : Nat} → Chain s n s' k p l → (out : Bool) → Bool
  | _, _, _, _, _, _, .nil _ _ _ _, out => out
  | _, _, _, _, _, _, .snoc c m, out => c.overwrites ip (m.overwrites ip out)
end

mutual
/-- No SkipConnection inside has an `_F` that overwrites its input. -/
def Net.SkipsSafe (ip : Nat → Bool) : {s s' : List Nat} → {n k p : Nat} → Net s n s' k p → Prop
  | _, _, _, _, _, .linear _ _ _ _ _ _ _ => True
  | _, _, _, _, _, .act _ _ _ _ _ _ => True
  | _, _, _, _, _, .flatten _ _ _ _ _ => True
  | _, _, _, _, _, .reshape _ _ _ _ _ _ _ _ _ => True
  | _, _, _, _, _, .l2norm _ _ _ _ _ _ _ => True
  | _, _, _, _, _, .conv _ _ _ _ => True
  | _, _, _, _, _, .upsample _ _ _ _ _ _ _ _ _ => True
  | _, _, _, _, _, .maxpool _ _ => True
  | _, _, _, _, _, .seq _ c => c.SkipsSafe ip
  | _, _, _, _, _, .skip _ _ ch => ch.overwrites ip false = false ∧ ch.SkipsSafe ip
def Chain.SkipsSafe (ip : Nat → Bool) : {s s' : List Nat} → {n k p l : Nat} → Chain s n s' k p l → Prop
  | _, _, _, _, _, _, .nil _ _ _ _ => True
  | _, _, _, _, _, _, .snoc c m => c.SkipsSafe ip ∧ m.SkipsSafe ip
end

/-- `vjp`, `mjp` and `jTmjp`: the products computed from the last layer to the first -/
def Call.Reverse : Call → Prop
  | vjp _ _ | mjp _ _ | jTmjp _ _ _ _ _ => True
  | _ => False

end NNJ
