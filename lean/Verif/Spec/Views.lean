import Verif.Torch.Tensor
import Mathlib.Data.Matrix.Diagonal
import Mathlib.Data.Real.Basic

/-!
# Tensors as batches of vectors and matrices

The vocabulary of the property statements: what it means that a tensor holds a given batch of
samples, vectors or matrices.
-/

namespace NNJ

/-- `t` has shape `[B, *s]` and its `b`-th sample, flattened, is `X b` (so `n` is the number of
elements of a sample). -/
def IsBatch (t : Tensor ℝ) (B : Nat) (s : List Nat) (n : Nat) (X : Fin B → Fin n → ℝ) : Prop :=
  t.shape = B :: s ∧ ∀ (b : Fin B) (i : Fin n), t.data (b * n + i) = X b i

/-- `t` has shape `[B, n]` and `t[b, i] = X b i`. -/
def IsVec (t : Tensor ℝ) (B n : Nat) (X : Fin B → Fin n → ℝ) : Prop :=
  t.shape = [B, n] ∧ ∀ (b : Fin B) (i : Fin n), t.get [b, i] = X b i

/-- `t` has shape `[B, m, n]` and `t[b, i, j] = M b i j`. -/
def IsMat (t : Tensor ℝ) (B m n : Nat) (M : Fin B → Matrix (Fin m) (Fin n) ℝ) : Prop :=
  t.shape = [B, m, n] ∧ ∀ (b : Fin B) (i : Fin m) (j : Fin n), t.get [b, i, j] = M b i j

/-- How a metric `M b` is passed to a product: with `from_diag=True` the tensor `[B, k]` of the
diagonals of diagonal matrices, otherwise the tensor `[B, k, k]` of the matrices. -/
def MetricArg (fromDiag : Bool) (t : Tensor ℝ) (B k : Nat) (M : Fin B → Matrix (Fin k) (Fin k) ℝ) : Prop :=
  if fromDiag then ∃ d, IsVec t B k d ∧ ∀ b, M b = Matrix.diagonal (d b) else IsMat t B k k M

/-- How a metric is returned: with `to_diag=True` its diagonal `[B, k]`, otherwise `[B, k, k]`. -/
def MetricOut (toDiag : Bool) (t : Tensor ℝ) (B k : Nat) (M : Fin B → Matrix (Fin k) (Fin k) ℝ) : Prop :=
  if toDiag then IsVec t B k fun b => Matrix.diag (M b) else IsMat t B k k M

/-- A batch of one sample. -/
def ofSample (s : List Nat) {n : Nat} (x : Fin n → ℝ) : Tensor ℝ :=
  ⟨1 :: s, fun k => if h : k < n then x ⟨k, h⟩ else 0⟩

end NNJ
