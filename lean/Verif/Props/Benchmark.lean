import Verif.Props.Convert
import Verif.Props.NoneMatrix
import Verif.Props.Weights
import Verif.Proofs.Benchmark

/-!
# C47: the benchmark `GGN` (benchmarks/ggn/nnj.py)
-/

namespace NNJ
namespace Props
open Utils Benchmark Matrix

section
variable {s s' : List Nat} {n k p l : Nat} {c : Chain s n s' k p (l + 1)} {id : Nat} {st : Store ℝ}
variable {B : Nat} {X : Fin B → Fin n → ℝ} {x : Tensor ℝ}

/-- C47: on every Sequential with parameters, `ggn(X, y)` returns the vector with entries
`(1/B) Σ_b Σ_o J[b, o, j]²`, where `J` is what `jacobian(X, None, wrt="weight")` returns; `y` has no influence. -/
theorem C47_ggn (h : (Net.seq id c).Ok st) (hp : 0 < p) (hB : 0 < B) (hx : IsBatch x B s n X) (y : Tensor ℝ) :
    ∃ jt J r, Returns ((Net.seq id c).mod.jacobian x none .weight) st (some jt) ∧ IsMat jt B k p J ∧
      Returns (GGN.ggn (Net.seq id c).mod x y) st r ∧ IsVec1 r p fun j => (∑ b, ∑ o, J b o j ^ 2) / B := by
  obtain ⟨jt, J, hj, hJ, ht⟩ := C12_jTmjp_weight_diag h hB hx hp trivial
  obtain ⟨t, ht, hT⟩ := ht false
  obtain ⟨r, hr, hR⟩ := mean0_vec hT
  refine ⟨jt, J, r, hj, hJ, ?_, hR.1, fun j => ?_⟩
  · rw [Returns] at ht ⊢
    rw [GGN.ggn]
    generalize (Net.seq id c).mod.jTmjp x none none .weight false true false = q at ht
    rw [Prog.bind_ok (show q st = (.ok (.tensor t), (q st).2) from Prod.ext ht rfl)]
    rw [Res.lift_bind_ok (show PyVal.toTensor (.tensor t) = .ok t from rfl), hr]
    rfl
  · rw [hR.2 j]
    refine congrArg (· / (B : ℝ)) (Finset.sum_congr rfl fun b _ => ?_)
    simp [diag, mul_apply, pow_two]

/-- C47: without parameters it raises TypeError (`torch.mean(None, dim=0)`). -/
theorem C47_no_params {c : Chain s n s' k 0 (l + 1)} (h : (Net.seq id c).Ok st) (hB : 0 < B) (hx : IsBatch x B s n X) (y : Tensor ℝ) :
    (GGN.ggn (Net.seq id c).mod x y st).1 = .error .type := by
  have hj := (h.jTWd hB hx true (ones_metric B k)).2 rfl
  have e := C12_jTmjp_eq h hB hx (td := true) trivial .weight false false (by simp)
  rw [Returns, ← e] at hj
  rw [GGN.ggn]
  generalize (Net.seq id c).mod.jTmjp x none none .weight false true false = q at hj
  rw [Prog.bind_ok (show q st = (.ok .none, (q st).2) from Prod.ext hj rfl)]
  rfl

end

variable {s s' : List Nat} {n k p l : Nat} {ls : List (TorchLayer ℝ)} {c : Chain s n s' k p (l + 1)} {i : Nat}
variable {B : Nat} {X : Fin B → Fin n → ℝ} {x : Tensor ℝ}

/-- C47: `GGN(model)` of a torch Sequential of well-shaped layers with default hyper-parameters computes the same function as
`model`, and its `ggn(X, y)` is, up to the factor `k/2` (`k`: number of outputs), the diagonal of the Gauss-Newton matrix of
`torch.nn.MSELoss()(model(X), y)`: the average over the batch of `(Dᵀ H D)[j, j]`, where `H` is the Hessian of the loss of the
sample in the outputs and `D` the derivative of the output in the weights. -/
theorem C47_mse (h : TypedC i ls c) (st : Store ℝ) (hst : Fresh i st) (hp : 0 < p) (hB : 0 < B) (hx : IsBatch x B s n X)
    (y : Tensor ℝ) (Y : Fin B → Fin k → ℝ) :
    ∃ m st1 wt w r, ∃ (D : Fin B → Matrix (Fin k) (Fin p) ℝ) (H : Fin B → Matrix (Fin k) (Fin k) ℝ),
      GGN.init i ls st = (.ok m, st1) ∧ forwardMap m st1 s = torchMap (n := n) (k := k) ls s ∧
      Returns m.getWeight st1 wt ∧ IsVec1 wt p w ∧
      (∀ b, (Net.seq (2 * (i + l + 1)) c).sem.smooth w (X b) → HasFDerivAt (weightMap m st1 x b) (linMap (D b)) w) ∧
      (∀ b, HasHess (fun f => mseLoss f (Y b)) (H b) (forwardMap m st1 s (X b))) ∧
      Returns (GGN.ggn m x y) st1 r ∧ IsVec1 r p fun j => (k / 2 : ℝ) * ((∑ b, ((D b)ᵀ * H b * D b) j j) / B) := by
  obtain ⟨st1, h1, h2, h3⟩ := C27_net h st hst
  obtain ⟨jt, J, r, hj, hJ, hr, hR⟩ := C47_ggn h2 hp hB hx y
  obtain ⟨jt', J', wt, w, hj', hJ', hw, hW, hD⟩ := C02_jacobian_weight h2 (by rw [Net.paramIds]; exact h.paramIds.1) hp hB hx
  obtain rfl : jt = jt' := by
    have := hj.symm.trans hj'
    simpa using this
  have hJJ : J = J' := by
    funext b; ext o j
    rw [← hJ.2, ← hJ'.2]
  subst hJJ
  refine ⟨_, st1, wt, w, r, J, fun _ => diagonal fun _ => (2 / k : ℝ), h1, h3, hw, hW, hD, fun b => mseLoss_hess _ _, hr, hR.1, fun j => ?_⟩
  rw [hR.2 j]
  have hk : (k : ℝ) ≠ 0 := Nat.cast_ne_zero.2 h2.g.kpos.ne'
  have e : ∀ b, ((J b)ᵀ * diagonal (fun _ : Fin k => (2 / k : ℝ)) * J b : Matrix (Fin p) (Fin p) ℝ) j j = 2 / k * ∑ o, J b o j ^ 2 := fun b => by
    rw [mul_apply, Finset.mul_sum]
    refine Finset.sum_congr rfl fun o _ => ?_
    rw [mul_diagonal, transpose_apply]; ring
  simp only [e]
  rw [← Finset.mul_sum]
  field_simp

/-! the hypotheses can be met -/

example (st : Store ℝ) (hst : Fresh 0 st) (y : Tensor ℝ) : ∃ m st1 r, ∃ (D : Fin 2 → Matrix (Fin 1) (Fin 13) ℝ) (H : Fin 2 → Matrix (Fin 1) (Fin 1) ℝ),
    GGN.init 0 exTorch st = (.ok m, st1) ∧ (∀ b, HasHess (fun f => mseLoss f 0) (H b) (forwardMap m st1 [2] fun i : Fin 2 => (2 * b + i : ℝ))) ∧
      Returns (GGN.ggn m ⟨[2, 2], fun i => i⟩ y) st1 r ∧
      ∀ j : Fin 13, r.data j = (1 / 2 : ℝ) * ((((D 0)ᵀ * H 0 * D 0) j j + ((D 1)ᵀ * H 1 * D 1) j j) / 2) := by
  obtain ⟨m, st1, wt, w, r, D, H, h1, _, _, _, _, hH, h2, h3⟩ := C47_mse exTyped st hst (by norm_num) (B := 2) (X := fun b i => (2 * b + i : ℝ)) (x := ⟨[2, 2], fun i => i⟩)
    (by norm_num) ⟨rfl, fun b i => by simp; ring⟩ y fun _ => 0
  refine ⟨m, st1, r, D, H, h1, hH, h2, fun j => ?_⟩
  rw [h3.2 j]
  simp [Fin.sum_univ_two]

/-- `Sequential(Tanh())` -/
def exTanh : Net [2] 2 [2] 2 (0 + 0) := .seq 9 (.snoc (.nil [2] 2 rfl (by norm_num)) (.act .tanh 2 [2] 2 rfl (by norm_num)))

example (y : Tensor ℝ) : (GGN.ggn exTanh.mod ⟨[1, 2], fun i => i⟩ y { exStore with fmaps := fun _ => some [], hooks := fun j => if j = 2 then [9] else [] }).1 = .error .type := by
  refine C47_no_params (B := 1) (X := fun b i => (2 * b + i : ℝ)) ⟨by simp only [Net.ids, Chain.ids]; decide, ?_⟩ (by norm_num) ⟨rfl, fun b i => by simp⟩ y
  simp [Net.Wired, Chain.Wired, Net.mod, Activation.toMod, PureLayer.toMod]

end Props
end NNJ
