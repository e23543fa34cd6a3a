import Verif.Spec.Calls

/-!
# The list `feature_maps` of a Sequential
-/

namespace NNJ

/-- Each entry is the output of its layer for the entry before it: `feature_maps[j + 1]` is what
layer `j` returns for `feature_maps[j]`. -/
def LayerByLayer (ms : List (Mod ℝ)) (L : List (Tensor ℝ)) (st : Store ℝ) : Prop :=
  ∀ j m, ms[j]? = some m → ∃ a b v, L[j]? = some a ∧ L[j + 1]? = some b ∧ Returns (m.forward a) st v ∧ TEq v b

/-- the products that run the layers again from `x` instead of using the caches -/
def Call.Appends : Call → Prop
  | jvp _ _ | jmp _ _ => True
  | _ => False

/-- the products that go through the layers backwards, and `jacobian`, which does the same -/
def Call.Resets : Call → Prop
  | jacobian _ | vjp _ _ | mjp _ _ | jTmjp _ _ _ _ _ => True
  | _ => False

/-- the arguments of a call on a network: `x` is a batch of inputs, the other arguments fit -/
def Call.Fits {s s' : List Nat} {n k p : Nat} (N : Net s n s' k p) (x : Tensor ℝ) (c : Call) : Prop :=
  ∃ (B : Nat) (X : Fin B → Fin n → ℝ), 0 < B ∧ IsBatch x B s n X ∧ c.Valid N B

end NNJ
