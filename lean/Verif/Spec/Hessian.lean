import Verif.Spec.LogLik

/-!
# Vocabulary for second derivatives

Piecewise linear networks, Hessians at a point, second derivatives along a line.
-/

namespace NNJ
open Filter

/-- near every point where the activation is differentiable, it is the tangent there: ReLU, and user-defined layers like
LeakyReLU -/
def Act.PieceLin : Act → Prop
  | .relu => True
  | .custom f g => ∀ a, HasDerivAt f (g a (f a)) a → ∀ᶠ b in nhds a, f b = f a + g a (f a) * (b - a)
  | _ => False

mutual
/-- all layers inside are piecewise linear -/
def Net.PieceLin : {s s' : List Nat} → {n k p : Nat} → Net s n s' k p → Prop
  | _, _, _, _, _, .linear _ _ _ _ _ _ _ => True
  | _, _, _, _, _, .act a _ _ _ _ _ => a.PieceLin
  | _, _, _, _, _, .flatten _ _ _ _ _ => True
  | _, _, _, _, _, .reshape _ _ _ _ _ _ _ _ _ => True
  | _, _, _, _, _, .l2norm _ _ _ _ _ _ _ => False
  | _, _, _, _, _, .conv _ _ _ _ => True
  | _, _, _, _, _, .upsample _ _ _ _ _ _ _ _ _ => True
  | _, _, _, _, _, .maxpool _ _ => True
  | _, _, _, _, _, .seq _ c => c.PieceLin
  | _, _, _, _, _, .skip _ _ ch => ch.PieceLin
/-- the same for a list of layers -/
def Chain.PieceLin : {s s' : List Nat} → {n k p l : Nat} → Chain s n s' k p l → Prop
  | _, _, _, _, _, _, .nil _ _ _ _ => True
  | _, _, _, _, _, _, .snoc c m => c.PieceLin ∧ m.PieceLin
end

/-- the entries of `v` that are not 0 belong to the parameters of a single layer -/
def Net.InLayer {s s' : List Nat} {n k p : Nat} (N : Net s n s' k p) (v : Fin p → ℝ) : Prop :=
  ∀ i j, v i ≠ 0 → v j ≠ 0 → N.sem.same i j = true

/-- `H` is the Hessian of `f` at `x`: `f` has a gradient near `x`, whose derivative at `x` is `H` -/
def HasHessAt {n : Nat} (f : (Fin n → ℝ) → ℝ) (H : Matrix (Fin n) (Fin n) ℝ) (x : Fin n → ℝ) : Prop :=
  ∃ g, (∀ᶠ z in nhds x, HasGrad f (g z) z) ∧ HasFDerivAt g (linMap H) x

/-- `a` is the second derivative of `f` at `t`: `f` is differentiable near `t`, and `a` is the derivative at `t` of its derivative -/
def HasSecondDerivAt (f : ℝ → ℝ) (a t : ℝ) : Prop := ∃ f', (∀ᶠ u in nhds t, HasDerivAt f (f' u) u) ∧ HasDerivAt f' a t

end NNJ
