import Mathlib.MeasureTheory.Integral.Pi
import Verif.Spec.LogLik

/-!
# Vocabulary for expectations over targets

`ρ` are the weights (probabilities, or a probability density) of the possible targets.
-/

namespace NNJ
open LogLik MeasureTheory

/-- the sum of `f` over finitely many targets with weights `ρ` is `a` -/
def SumEx {Ω : Type} [Fintype Ω] (ρ f : Ω → ℝ) (a : ℝ) : Prop := ∑ ω, ρ ω * f ω = a

/-- the integral of `f` with the density `ρ` exists and is `a` -/
def IntEx {Ω : Type} [MeasurableSpace Ω] (μ : Measure Ω) (ρ f : Ω → ℝ) (a : ℝ) : Prop :=
  Integrable (fun ω => ρ ω * f ω) μ ∧ ∫ ω, ρ ω * f ω ∂μ = a

/-- a binary target as a number -/
def bitVal (t : Bool) : ℝ := if t then 1 else 0

/-- the one-hot vector of a class -/
def oneHot {c : Nat} (t : Fin c) (a : Fin c) : ℝ := if a = t then 1 else 0

/-- the likelihood of a target: the exponential of what `forward` returns (of `B` times this for the average) -/
noncomputable def likelihood (fwd : Prog ℝ (Option (Tensor ℝ))) (st : Store ℝ) (agg : AggArg) (B : Nat) : ℝ :=
  Real.exp (scalarOf fwd st / aggFactor agg B)

/-- The calls `grad ω` return vectors with expectation zero, and the expectations of the products of their entries are `-c` times the matrix
that `ggn` returns (with shape "diag": of which `ggn` returns the diagonal). -/
def Fisher {Ω : Type} (Ex : (Ω → ℝ) → ℝ → Prop) (grad : Ω → Prog ℝ (PyVal ℝ)) (ggn : Prog ℝ (PyVal ℝ)) (st : Store ℝ) (q : Nat)
    (shape : ShapeArg) (c : ℝ) : Prop :=
  ∃ (g : Ω → Tensor ℝ) (G : Ω → Fin q → ℝ) (r : Tensor ℝ) (F : Matrix (Fin q) (Fin q) ℝ),
    (∀ ω, Returns (grad ω) st (.tensor (g ω)) ∧ IsVec1 (g ω) q (G ω)) ∧ Returns ggn st (.tensor r) ∧
    (shape = .diag → IsVec1 r q fun i => F i i) ∧ (shape = .full → IsMat1 r q q F) ∧
    (∀ i, Ex (fun ω => G ω i) 0) ∧ ∀ i j, Ex (fun ω => G ω i * G ω j) (-(c * F i j))

end NNJ
