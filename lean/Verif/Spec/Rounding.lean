import Verif.Spec.ShapesNet
import Verif.Spec.Weights

/-!
# Numbers with rounding errors
-/

namespace NNJ

/-- The standard model of floating point arithmetic without overflow and underflow: each number stands for a real number, sums and products
are rounded with a relative error of at most `u`, comparisons are exact. -/
structure Rounding (β : Type) [Zero β] [Add β] [Mul β] [LT β] where
  u : ℝ
  val : β → ℝ
  u_nonneg : 0 ≤ u
  zero : val 0 = 0
  lt_iff : ∀ a b : β, a < b ↔ val a < val b
  add : ∀ a b : β, ∃ δ, |δ| ≤ u ∧ val (a + b) = (val a + val b) * (1 + δ)
  mul : ∀ a b : β, ∃ δ, |δ| ≤ u ∧ val (a * b) = val a * val b * (1 + δ)

/-- the state with all numbers replaced by the real numbers they stand for -/
def Store.image {β : Type} (v : β → ℝ) (s : Store β) : Store ℝ where
  param i := (s.param i).map v
  fmaps i := (s.fmaps i).map (List.map (Tensor.map v))
  pidx := s.pidx
  hooks := s.hooks

mutual
/-- built from Linear with at most `m` inputs, ReLU, Flatten, Reshape, Sequential and SkipConnection -/
def Net.ReluNet (m : Nat) : {s s' : List Nat} → {n k p : Nat} → Net s n s' k p → Prop
  | _, _, _, _, _, .linear _ _ _ i _ _ _ => i ≤ m
  | _, _, _, _, _, .act a _ _ _ _ _ => a = .relu
  | _, _, _, _, _, .flatten _ _ _ _ _ => True
  | _, _, _, _, _, .reshape _ _ _ _ _ _ _ _ _ => True
  | _, _, _, _, _, .l2norm _ _ _ _ _ _ _ => False
  | _, _, _, _, _, .conv _ _ _ _ => False
  | _, _, _, _, _, .upsample _ _ _ _ _ _ _ _ _ => False
  | _, _, _, _, _, .maxpool _ _ => False
  | _, _, _, _, _, .seq _ c => c.ReluNet m
  | _, _, _, _, _, .skip _ _ ch => ch.ReluNet m
def Chain.ReluNet (m : Nat) : {s s' : List Nat} → {n k p l : Nat} → Chain s n s' k p l → Prop
  | _, _, _, _, _, _, .nil _ _ _ _ => True
  | _, _, _, _, _, _, .snoc c q => c.ReluNet m ∧ q.ReluNet m
end

end NNJ
