import Verif.Model.Utils
import Verif.Spec.Views
import Mathlib.LinearAlgebra.Matrix.NonsingularInverse

/-!
# Vocabulary for `invert_block_diagonal`
-/

namespace NNJ
namespace Utils

/-- lower triangle of a matrix -/
def lowerTri {n : Nat} (M : Matrix (Fin n) (Fin n) ℝ) : Matrix (Fin n) (Fin n) ℝ := fun i j => if j ≤ i then M i j else 0

/-- `t` has shape `[*pre, n, n]`: it is a batch of `n x n` matrices `M b`, `b` counting row-major
through the leading dimensions (`pre = []`: a single matrix). -/
def IsMats (t : Tensor ℝ) (pre : List Nat) (n : Nat) (M : Fin (size pre) → Matrix (Fin n) (Fin n) ℝ) : Prop :=
  t.shape = pre ++ [n, n] ∧ ∀ (b : Fin (size pre)) (i j : Fin n), t.data (b * (n * n) + i * n + j) = M b i j

/-- `t` is a batch of square matrices without zeros on the diagonal, and `r` a batch of the same shape,
holding the inverses of `L Lᵀ` for `L` the lower triangles of the matrices. -/
def InverseOfLLt (t r : Tensor ℝ) : Prop :=
  ∃ (pre : List Nat) (n : Nat) (M R : Fin (size pre) → Matrix (Fin n) (Fin n) ℝ), IsMats t pre n M ∧ (∀ b i, M b i i ≠ 0) ∧
    IsMats r pre n R ∧ ∀ b, R b * (lowerTri (M b) * (lowerTri (M b)).transpose) = 1

/-- The two nested lists have the same structure, and the tensors at corresponding places are related. -/
inductive Blockwise (rel : Tensor ℝ → Tensor ℝ → Prop) : PyVal ℝ → PyVal ℝ → Prop
  | tensor {t r : Tensor ℝ} : rel t r → Blockwise rel (.tensor t) (.tensor r)
  | list {vs rs : List (PyVal ℝ)} (hlen : vs.length = rs.length) :
      (∀ (i : Nat) (h : i < vs.length), Blockwise rel vs[i] (rs[i]'(hlen ▸ h))) → Blockwise rel (.list vs) (.list rs)

/-- the value is a nested list of tensors (no None), each of which satisfies the condition -/
inductive Leaves (p : Tensor ℝ → Prop) : PyVal ℝ → Prop
  | tensor {t : Tensor ℝ} : p t → Leaves p (.tensor t)
  | list {vs : List (PyVal ℝ)} : (∀ v ∈ vs, Leaves p v) → Leaves p (.list vs)

/-- a batch of square matrices without zeros on the diagonals -/
def IsFactors (t : Tensor ℝ) : Prop := ∃ pre n M, IsMats t pre n M ∧ ∀ b i, M b i i ≠ 0

/-- a zero on the diagonal, a tensor that is not a batch of square matrices, or None -/
inductive BadLeaf : PyVal ℝ → Prop
  | none : BadLeaf .none
  | singular {t pre n} {M : Fin (size pre) → Matrix (Fin n) (Fin n) ℝ} {b i} : IsMats t pre n M → M b i i = 0 → BadLeaf (.tensor t)
  | notSquare {t : Tensor ℝ} : (¬ ∃ pre n, t.shape = pre ++ [n, n]) → BadLeaf (.tensor t)
  | list {vs : List (PyVal ℝ)} {v : PyVal ℝ} : v ∈ vs → BadLeaf v → BadLeaf (.list vs)

end Utils
end NNJ
