import Verif.Spec.RoundVjp

/-!
# Rows and columns of a batch of matrices
-/

namespace NNJ
open Tensor

/-- `v` is `M[:, i]`, for `M` of shape `[B, r, k]` -/
def IsRow {α : Type} (B r k i : Nat) (M v : Tensor α) : Prop :=
  M.shape = [B, r, k] ∧ v.shape = [B, k] ∧ ∀ (b : Fin B) (c : Fin k), M.get [↑b, i, ↑c] = v.get [↑b, ↑c]

/-- `v` is `M[:, :, i]`, for `M` of shape `[B, k, r]` -/
def IsCol {α : Type} (B k r i : Nat) (M v : Tensor α) : Prop :=
  M.shape = [B, k, r] ∧ v.shape = [B, k] ∧ ∀ (b : Fin B) (c : Fin k), M.get [↑b, ↑c, i] = v.get [↑b, ↑c]

end NNJ
