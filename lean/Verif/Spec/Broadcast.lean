import Verif.Spec.Net

/-!
# Vectors whose number of rows is not the batch size

`plain` networks are built from Linear, the elementwise layers, Flatten and Reshape.
-/

namespace NNJ

/-- row `r` of a tensor of `R` rows, where a single row stands for all rows -/
def rowOr0 {R : Nat} (h : 0 < R) (r : Nat) : Fin R := if h' : r < R then ⟨r, h'⟩ else ⟨0, h⟩

mutual
/-- only Linear, elementwise layers, Flatten and Reshape (in Sequentials, nested in any way) -/
def Net.plain : {s s' : List Nat} → {n k p : Nat} → Net s n s' k p → Bool
  | _, _, _, _, _, .linear _ _ _ _ _ _ _ => true
  | _, _, _, _, _, .act _ _ _ _ _ _ => true
  | _, _, _, _, _, .flatten _ _ _ _ _ => true
  | _, _, _, _, _, .reshape _ _ _ _ _ _ _ _ _ => true
  | _, _, _, _, _, .l2norm _ _ _ _ _ _ _ => false
  | _, _, _, _, _, .conv _ _ _ _ => false
  | _, _, _, _, _, .upsample _ _ _ _ _ _ _ _ _ => false
  | _, _, _, _, _, .maxpool _ _ => false
  | _, _, _, _, _, .seq _ c => c.plain
  | _, _, _, _, _, .skip _ _ _ => false
def Chain.plain : {s s' : List Nat} → {n k p l : Nat} → Chain s n s' k p l → Bool
  | _, _, _, _, _, _, .nil _ _ _ _ => true
  | _, _, _, _, _, _, .snoc c m => c.plain && m.plain
end

mutual
/-- some layer is elementwise -/
def Net.hasAct : {s s' : List Nat} → {n k p : Nat} → Net s n s' k p → Bool
  | _, _, _, _, _, .act _ _ _ _ _ _ => true
  | _, _, _, _, _, .linear _ _ _ _ _ _ _ => false
  | _, _, _, _, _, .flatten _ _ _ _ _ => false
  | _, _, _, _, _, .reshape _ _ _ _ _ _ _ _ _ => false
  | _, _, _, _, _, .l2norm _ _ _ _ _ _ _ => false
  | _, _, _, _, _, .conv _ _ _ _ => false
  | _, _, _, _, _, .upsample _ _ _ _ _ _ _ _ _ => false
  | _, _, _, _, _, .maxpool _ _ => false
  | _, _, _, _, _, .seq _ c => c.hasAct
  | _, _, _, _, _, .skip _ _ ch => ch.hasAct
def Chain.hasAct : {s s' : List Nat} → {n k p l : Nat} → Chain s n s' k p l → Bool
  | _, _, _, _, _, _, .nil _ _ _ _ => false
  | _, _, _, _, _, _, .snoc c m => c.hasAct || m.hasAct
end

end NNJ
