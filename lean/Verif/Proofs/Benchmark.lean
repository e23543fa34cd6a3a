import Verif.Model.Benchmark
import Verif.Spec.Benchmark
import Verif.Spec.Weights
import Verif.Proofs.ConvertNet
import Verif.Proofs.LogLikRun

/-!
# Lemmas for the benchmark
-/

namespace NNJ
open Utils Tensor Matrix LogLik

theorem mean0_vec {a : Tensor ℝ} {B k : Nat} {X : Fin B → Fin k → ℝ} (ha : IsVec a B k X) :
    ∃ r, mean0 a = .ok r ∧ IsVec1 r k fun i => (∑ b, X b i) / B := by
  obtain ⟨v, hv, hP⟩ := aggValue_vec (agg := .average) (Or.inr rfl) ha
  obtain ⟨t, rfl, ht⟩ := isTensor_iff.1 hP
  simp only [aggValue, PyVal.toTensor, Res.bind_ok] at hv
  cases hm : mean0 a with
  | error e => rw [hm] at hv; exact absurd hv (by intro h; cases h)
  | ok r =>
    rw [hm] at hv
    obtain rfl : r = t := by cases hv; rfl
    refine ⟨r, rfl, ht.1, fun i => ?_⟩
    rw [ht.2 i, aggFactor, if_pos rfl]
    ring

theorem Utils.Typed.paramIds {i : Nat} {s s' : List Nat} {n k p : Nat} {a : TorchLayer ℝ} {N : Net s n s' k p} (h : Typed i a N) :
    N.paramIds.Nodup ∧ ∀ j ∈ N.paramIds, 2 * i ≤ j ∧ j < 2 * i + 2 := by
  cases h <;> simp [Net.paramIds]

theorem Utils.TypedC.paramIds {i : Nat} {s s' : List Nat} {n k p l : Nat} {ls : List (TorchLayer ℝ)} {c : Chain s n s' k p l} (h : TypedC i ls c) :
    c.paramIds.Nodup ∧ ∀ j ∈ c.paramIds, 2 * i ≤ j ∧ j < 2 * (i + l) := by
  induction h with
  | nil => simp [Chain.paramIds]
  | snoc _ ha ih =>
    obtain ⟨h1, h2⟩ := ih
    obtain ⟨h3, h4⟩ := ha.paramIds
    rw [Chain.paramIds]
    refine ⟨List.nodup_append.2 ⟨h1, h3, fun a ha b hb hab => ?_⟩, fun j hj => ?_⟩
    · have := h2 a ha; have := h4 b hb; omega
    · rcases List.mem_append.1 hj with hj | hj
      · have := h2 j hj; omega
      · have := h4 j hj; omega

theorem mseLoss_eq {k : Nat} (t : Fin k → ℝ) : (fun y => mseLoss y t) = fun y => (-2 / k : ℝ) * gaussLL y t := by
  funext y; rw [mseLoss, gaussLL]; ring

/-- the Hessian of the squared loss -/
theorem mseLoss_hess {k : Nat} (y t : Fin k → ℝ) : HasHess (fun y => mseLoss y t) (diagonal fun _ => (2 / k : ℝ)) y := by
  obtain ⟨g, hg, hH⟩ := gaussLL_hess y t
  refine ⟨fun z => (-2 / k : ℝ) • g z, fun z => ?_, ?_⟩
  · rw [HasGrad, mseLoss_eq]
    refine ((hg z).const_mul (-2 / k : ℝ)).congr_fderiv ?_
    ext v
    simp [linForm_apply, dotProduct, Finset.mul_sum, mul_assoc]
  · refine (hH.const_smul (-2 / k : ℝ)).congr_fderiv ?_
    ext v j
    simp [linMap_apply, mulVec_diagonal]
    ring

end NNJ
