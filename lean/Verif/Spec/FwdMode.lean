import Verif.Spec.Loose

/-!
# Which forward-mode products a network supports

`q` says for which numbers of inputs a pooling layer lets the argument through: none for `jvp` (`MaxPool2d.jvp` raises), the number of columns for `jmp`.
-/

namespace NNJ

mutual
/-- The layers inside that the product with respect to the input passes: all but Conv2d and Upsample, and a pooling layer if `q` holds of the number of
its inputs. -/
def Net.Through (q : Nat → Prop) : {s s' : List Nat} → {n k p : Nat} → Net s n s' k p → Prop
  | _, _, _, _, _, .linear _ _ _ _ _ _ _ => True
  | _, _, _, _, _, .act _ _ _ _ _ _ => True
  | _, _, _, _, _, .flatten _ _ _ _ _ => True
  | _, _, _, _, _, .reshape _ _ _ _ _ _ _ _ _ => True
  | _, _, _, _, _, .l2norm _ _ _ _ _ _ _ => True
  | _, _, _, _, _, .conv _ _ _ _ => False
  | _, _, _, _, _, .upsample _ _ _ _ _ _ _ _ _ => False
  | _, _, _, _, _, .maxpool _ g => q (g.c * g.h * g.w)
  | _, _, _, _, _, .seq _ c => c.Through q
  | _, _, _, _, _, .skip _ _ ch => ch.Through q
def Chain.Through (q : Nat → Prop) : {s s' : List Nat} → {n k p l : Nat} → Chain s n s' k p l → Prop
  | _, _, _, _, _, _, .nil _ _ _ _ => True
  | _, _, _, _, _, _, .snoc c m => c.Through q ∧ m.Through q
end

mutual
/-- The same for the product with respect to the weights: there is no Conv2d, every SkipConnection has parameters, and what comes after a layer with
parameters in a Sequential lets products with respect to the input through. -/
def Net.ThroughW (q : Nat → Prop) : {s s' : List Nat} → {n k p : Nat} → Net s n s' k p → Prop
  | _, _, _, _, _, .linear _ _ _ _ _ _ _ => True
  | _, _, _, _, _, .act _ _ _ _ _ _ => True
  | _, _, _, _, _, .flatten _ _ _ _ _ => True
  | _, _, _, _, _, .reshape _ _ _ _ _ _ _ _ _ => True
  | _, _, _, _, _, .l2norm _ _ _ _ _ _ _ => True
  | _, _, _, _, _, .conv _ _ _ _ => False
  | _, _, _, _, _, .upsample _ _ _ _ _ _ _ _ _ => True
  | _, _, _, _, _, .maxpool _ _ => True
  | _, _, _, _, _, .seq _ c => c.ThroughW q
  | _, _, _, _, _, @Net.skip _ _ _ _ _ p _ _ _ ch => 0 < p ∧ ch.ThroughW q
def Chain.ThroughW (q : Nat → Prop) : {s s' : List Nat} → {n k p l : Nat} → Chain s n s' k p l → Prop
  | _, _, _, _, _, _, .nil _ _ _ _ => True
  | _, _, _, _, _, _, @Chain.snoc _ _ _ _ _ _ p _ _ c m => c.ThroughW q ∧ (p = 0 ∨ m.Through q) ∧ m.ThroughW q
end

mutual
/-- the numbers of inputs of the pooling layers inside -/
def Net.pools : {s s' : List Nat} → {n k p : Nat} → Net s n s' k p → List Nat
  | _, _, _, _, _, .linear _ _ _ _ _ _ _ => []
  | _, _, _, _, _, .act _ _ _ _ _ _ => []
  | _, _, _, _, _, .flatten _ _ _ _ _ => []
  | _, _, _, _, _, .reshape _ _ _ _ _ _ _ _ _ => []
  | _, _, _, _, _, .l2norm _ _ _ _ _ _ _ => []
  | _, _, _, _, _, .conv _ _ _ _ => []
  | _, _, _, _, _, .upsample _ _ _ _ _ _ _ _ _ => []
  | _, _, _, _, _, .maxpool _ g => [g.c * g.h * g.w]
  | _, _, _, _, _, .seq _ c => c.pools
  | _, _, _, _, _, .skip _ _ ch => ch.pools
def Chain.pools : {s s' : List Nat} → {n k p l : Nat} → Chain s n s' k p l → List Nat
  | _, _, _, _, _, _, .nil _ _ _ _ => []
  | _, _, _, _, _, _, .snoc c m => c.pools ++ m.pools
end

end NNJ
