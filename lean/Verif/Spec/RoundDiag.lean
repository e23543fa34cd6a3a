import Verif.Spec.RoundVjp

/-!
# Diagonal metrics with rounding errors
-/

namespace NNJ

mutual
/-- the number of roundings on the way of a number back through the network: in Linear two for the products and one for each summand, in ReLU two -/
def Net.roundings : {s s' : List Nat} → {n k p : Nat} → Net s n s' k p → Nat
  | _, _, _, _, _, .linear _ _ _ _ o _ _ => o + 2
  | _, _, _, _, _, .act _ _ _ _ _ _ => 2
  | _, _, _, _, _, .seq _ c => c.roundings
  | _, _, _, _, _, _ => 0
def Chain.roundings : {s s' : List Nat} → {n k p l : Nat} → Chain s n s' k p l → Nat
  | _, _, _, _, _, _, .nil _ _ _ _ => 0
  | _, _, _, _, _, _, .snoc c q => c.roundings + q.roundings
end

end NNJ
