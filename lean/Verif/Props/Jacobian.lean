import Verif.Proofs.DerivL2
import Verif.Spec.Example

/-!
# C01: `jacobian(x, None, wrt="input")` is the derivative of `forward`
-/

namespace NNJ
namespace Props
open Matrix

variable {s s' : List Nat} {n k p : Nat} {N : Net s n s' k p} {st : Store ℝ}
variable {B : Nat} {X : Fin B → Fin n → ℝ} {x : Tensor ℝ}

/-- `forward` on a single sample does not raise and returns one output (so the value 0 that
`forwardMap` has for a raising call is never used), and on a batch it computes the same map sample
by sample. -/
theorem C01_forward (h : N.Ok st) :
    (∀ z : Fin n → ℝ, ∃ t, Returns (N.mod.forward (ofSample s z)) st t ∧ t.shape = 1 :: s' ∧
      ∀ i : Fin k, t.data i = forwardMap (k := k) N.mod st s z i) ∧
    (0 < B → IsBatch x B s n X → ∃ t, Returns (N.mod.forward x) st t ∧
      IsBatch t B s' k fun b => forwardMap N.mod st s (X b)) := by
  constructor
  · intro z
    obtain ⟨t, ht, hT⟩ := h.forwardMap_run z
    exact ⟨t, ht, hT.1, fun i => by rw [h.forwardMap_eq]; simpa using hT.2 0 i⟩
  · intro hB hx
    obtain ⟨t, ht, hT⟩ := h.forward hB hx
    refine ⟨t, ht, ?_⟩
    simpa only [h.forwardMap_eq] using hT

/-- C01: `jacobian(x, None, wrt="input")` returns a tensor of shape `[B, k, n]` whose `b`-th matrix is
the Fréchet derivative of `forward` (on flattened samples) at the `b`-th sample, provided every
layer met on the way is differentiable there. -/
theorem C01_jacobian_input (h : N.Ok st) (hB : 0 < B) (hx : IsBatch x B s n X) :
    ∃ jt J, Returns (N.mod.jacobian x none .input) st (some jt) ∧ IsMat jt B k n J ∧
      ∀ b, N.sem.smooth (N.w st) (X b) → HasFDerivAt (forwardMap N.mod st s) (linMap (J b)) (X b) := by
  obtain ⟨jt, hj, hJ⟩ := h.jacI hB hx
  refine ⟨jt, _, hj, hJ, fun b hs => ?_⟩
  rw [h.forwardMap_eq]
  exact (N.diff _ _ hs).input

/-- the example network is differentiable at both example samples: the two ReLU inputs are not 0 -/
theorem exNet_smooth (b : Fin 2) : exNet.sem.smooth (exNet.w exStore) (fun i => (2 * b + i : ℝ)) := by
  have ew : exNet.w exStore = Fin.append (Fin.append (Fin.append (Fin.append (fun _ => 0) (linearW 0 (some 1) 2 3 exStore)) (fun _ => 0))
      (Fin.append (Fin.append (fun _ => 0) (linearW 2 none 3 2 exStore)) (fun _ => 0)))
      (Fin.append (fun _ => 0) (linearW 3 (some 4) 5 1 exStore)) := by
    simp only [exNet, Net.w, Chain.w]; rfl
  rw [ew]
  have t : ∀ {y : ℝ}, 0 < y → 0 < Real.tanh y := fun {y} hy => by
    rw [Real.tanh_eq_sinh_div_cosh]; exact div_pos (Real.sinh_pos_iff.2 hy) (Real.cosh_pos y)
  simp [exNet, Net.sem, Chain.sem, Sem.comp, Sem.id, Sem.skip, linearSem, Act.sem, Sem.leaf0, Sem.leaf, Act.smoothAt, Act.fn, linearF,
    wl, wr, linearW, exStore, Fin.append, Fin.addCases, Fin.sum_univ_succ, finProdFinEquiv, biasLen]
  have hb : (0 : ℝ) ≤ (b : Nat) := Nat.cast_nonneg _
  have t1 := t (y := 2 * (b : Nat) + 1 + 1) (by linarith)
  have t2 := t (y := 2 * (2 * (b : Nat)) + 3 * (2 * (b : Nat) + 1) + 1) (by linarith)
  have t3 := t (y := 4 * (2 * (b : Nat)) + 5 * (2 * (b : Nat) + 1) + 1) (by linarith)
  exact ⟨by linarith, by linarith⟩

example : ∃ jt J, Returns (exNet.mod.jacobian exInput none .input) exStore (some jt) ∧ IsMat jt 2 1 2 J ∧
    ∀ b : Fin 2, HasFDerivAt (forwardMap exNet.mod exStore [2]) (linMap (J b)) (fun i => (2 * b + i : ℝ)) := by
  obtain ⟨jt, J, h, hJ, hd⟩ := C01_jacobian_input exNet_ok (by norm_num) exInput_isBatch
  exact ⟨jt, J, h, hJ, fun b => hd b (exNet_smooth b)⟩

/-- the same for a convolutional network -/
example : ∃ jt J, Returns (exImg.mod.jacobian exImgInput none .input) exImgStore (some jt) ∧ IsMat jt 2 1 (1 * 3 * 2) J := by
  obtain ⟨jt, J, h, hJ, _⟩ := C01_jacobian_input exImg_ok (by norm_num) exImgInput_isBatch
  exact ⟨jt, J, h, hJ⟩

end Props
end NNJ
