import Verif.Spec.Rounding

/-!
# Reverse mode with rounding errors
-/

namespace NNJ

mutual
/-- built from Linear with at most `m` outputs, ReLU, Flatten, Reshape and Sequential -/
def Net.ReluSeq (m : Nat) : {s s' : List Nat} → {n k p : Nat} → Net s n s' k p → Prop
  | _, _, _, _, _, .linear _ _ _ _ o _ _ => o ≤ m
  | _, _, _, _, _, .act a _ _ _ _ _ => a = .relu
  | _, _, _, _, _, .flatten _ _ _ _ _ => True
  | _, _, _, _, _, .reshape _ _ _ _ _ _ _ _ _ => True
  | _, _, _, _, _, .l2norm _ _ _ _ _ _ _ => False
  | _, _, _, _, _, .conv _ _ _ _ => False
  | _, _, _, _, _, .upsample _ _ _ _ _ _ _ _ _ => False
  | _, _, _, _, _, .maxpool _ _ => False
  | _, _, _, _, _, .seq _ c => c.ReluSeq m
  | _, _, _, _, _, .skip _ _ _ => False
def Chain.ReluSeq (m : Nat) : {s s' : List Nat} → {n k p l : Nat} → Chain s n s' k p l → Prop
  | _, _, _, _, _, _, .nil _ _ _ _ => True
  | _, _, _, _, _, _, .snoc c q => c.ReluSeq m ∧ q.ReluSeq m
end

/-- the feature maps of `s`, and parameters of the same shapes with the entries `w` -/
def Store.withParams (s : Store ℝ) (w : Nat → Nat → ℝ) : Store ℝ where
  param i := ⟨(s.param i).shape, w i⟩
  fmaps := s.fmaps
  pidx := s.pidx
  hooks := s.hooks

end NNJ
