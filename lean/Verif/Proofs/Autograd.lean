import Verif.Spec.Autograd
import Verif.Proofs.ConvSums
import Verif.Proofs.LeafLinear
import Verif.Proofs.LeafDiag
import Verif.Proofs.LeafPool
import Verif.Proofs.SkipGood

/-!
# Reverse mode is multiplication by the matrices of the semantics
-/

namespace NNJ
open Matrix

theorem Act.backward_eq (a : Act) (x : ℝ) (h : a.Below x) : a.backward x = a.deriv x := by
  cases a with
  | relu => simp [Act.backward, Act.deriv]
  | sigmoid => simp only [Act.backward, Act.deriv]; ring
  | tanh => simp only [Act.backward, Act.deriv]; ring
  | sinusoidal => rfl
  | truncExp => rfl
  | custom f g => exact h.deriv
  | softplus b t =>
    simp only [Act.backward, Act.deriv]
    rw [if_neg (not_lt.2 h), mul_comm x b, Real.exp_neg]
    have := Real.exp_pos (b * x)
    field_simp

theorem l2_vecMul {n : Nat} (eps : ℝ) (x d : Fin n → ℝ) (w : Fin 0 → ℝ) (j : Fin n) : (d ᵥ* (l2Sem eps n).J w x) j =
    1 / (norm2 x + eps) * d j + (∑ i, d i * x i) * (-(1 / (norm2 x + eps) * (1 / (norm2 x + eps)))) * (1 / (norm2 x + eps) * x j) := by
  simp only [l2Sem, Sem.leaf0, Sem.leaf, vecMul, dotProduct]
  set u := 1 / (norm2 x + eps)
  simp only [mul_sub, Finset.sum_sub_distrib, mul_ite, mul_one, mul_zero, Finset.sum_ite_eq', Finset.mem_univ, if_true, Finset.sum_mul]
  rw [sub_eq_add_neg, ← Finset.sum_neg_distrib]
  exact congrArg₂ _ (mul_comm _ _) (Finset.sum_congr rfl fun i _ => by ring)

theorem zero_of_norm2 {n : Nat} {x : Fin n → ℝ} (h : norm2 x = 0) (i : Fin n) : x i = 0 := by
  have := (Real.sqrt_eq_zero (Finset.sum_nonneg fun i _ => mul_self_nonneg (x i))).1 h
  exact mul_self_eq_zero.1 ((Finset.sum_eq_zero_iff_of_nonneg fun i _ => mul_self_nonneg (x i)).1 this i (Finset.mem_univ i))

theorem l2Backward_iff {n : Nat} (eps : ℝ) (x d : Fin n → ℝ) (w : Fin 0 → ℝ) (he : norm2 x + eps ≠ 0) :
    l2Backward eps x d = d ᵥ* (l2Sem eps n).J w x ↔ eps = 0 ∨ ∑ i, d i * x i = 0 := by
  constructor
  · intro h
    by_contra hc
    push Not at hc
    have hN : norm2 x ≠ 0 := fun h0 => hc.2 (Finset.sum_eq_zero fun i _ => by rw [zero_of_norm2 h0 i, mul_zero])
    obtain ⟨j, hj⟩ : ∃ j, x j ≠ 0 := by
      by_contra hx
      push Not at hx
      exact hc.2 (Finset.sum_eq_zero fun i _ => by rw [hx i, mul_zero])
    have h1 := congrFun h j
    rw [l2_vecMul] at h1
    simp only [l2Backward, if_neg hN] at h1
    have hu : 1 / (norm2 x + eps) ≠ 0 := one_div_ne_zero he
    have h2 := mul_left_cancel₀ (mul_ne_zero hc.2 (neg_ne_zero.2 (mul_ne_zero hu hu))) (add_left_cancel h1)
    rw [div_eq_inv_mul] at h2
    have h3 := mul_right_cancel₀ hj h2
    rw [one_div] at h3
    have := inv_injective h3
    exact hc.1 (by linarith)
  · intro h
    funext j
    rw [l2_vecMul]
    simp only [l2Backward]
    rcases h with h | h
    · subst h
      rw [if_neg (by simpa using he), add_zero]
      congr 2
      ring
    · rw [h]; ring

theorem l2Backward_eq {n : Nat} (eps : ℝ) (x d : Fin n → ℝ) (w : Fin 0 → ℝ) (h : (eps = 0 ∧ norm2 x ≠ 0) ∨ (eps ≠ 0 ∧ norm2 x = 0)) :
    l2Backward eps x d = d ᵥ* (l2Sem eps n).J w x := by
  refine (l2Backward_iff eps x d w ?_).2 ?_
  · rcases h with ⟨h1, h2⟩ | ⟨h1, h2⟩
    · rwa [h1, add_zero]
    · rwa [h2, zero_add]
  · rcases h with h | h
    · exact .inl h.1
    · exact .inr (Finset.sum_eq_zero fun i _ => by rw [zero_of_norm2 h.2 i, mul_zero])

namespace Conv2d
open Conv2d

theorem convBackward_eq (bId : Option Nat) (g : ConvDims) (w : Fin (g.c2 * g.c1 * g.kh * g.kw + biasLen bId g.c2) → ℝ) (d : Fin (g.c2 * g.h2 * g.w2) → ℝ) :
    convBackward bId g w d = d ᵥ* convJ bId g.c1 g.h1 g.w1 g.c2 g.h2 g.w2 g.kh g.kw g.ph g.pw w := by
  funext m
  obtain ⟨c, y, z, rfl⟩ := pix_surj m
  simp only [convBackward, chan_pix, row_pix, col_pix]
  let F : Nat → Nat → Nat → ℝ := fun o r s => if h : o < g.c2 ∧ r < g.h2 ∧ s < g.w2 then d (pix ⟨o, h.1⟩ ⟨r, h.2.1⟩ ⟨s, h.2.2⟩) else 0
  let K : Nat → Nat → Nat → ℝ := fun o i j =>
    if h : o < g.c2 ∧ i < g.kh ∧ j < g.kw then w (Fin.castAdd _ (kix ⟨o, h.1⟩ c ⟨i, h.2.1⟩ ⟨j, h.2.2⟩)) else 0
  have eF : ∀ (o : Fin g.c2) (r : Fin g.h2) (s : Fin g.w2), F o r s = d (pix o r s) := fun o r s => by simp [F]
  have eK : ∀ (o : Fin g.c2) (i : Fin g.kh) (j : Fin g.kw), K o i j = w (Fin.castAdd _ (kix o c i j)) := fun o i j => by simp [K]
  rw [← sum_convJ c y z eF eK, Finset.sum_range]
  refine Finset.sum_congr rfl fun o _ => ?_
  rw [Finset.sum_range]
  refine Finset.sum_congr rfl fun i _ => ?_
  rw [Finset.sum_range]
  refine Finset.sum_congr rfl fun j _ => ?_
  rw [eK, padAt_nat (eF o)]

theorem convBackwardW_eq (g : ConvDims) (x : Fin (g.c1 * g.h1 * g.w1) → ℝ) (d : Fin (g.c2 * g.h2 * g.w2) → ℝ) (o : Fin g.c2) (c : Fin g.c1)
    (i : Fin g.kh) (j : Fin g.kw) :
    convBackwardW g x d o c i j = (d ᵥ* convJK g.c1 g.h1 g.w1 g.c2 g.h2 g.w2 g.kh g.kw g.ph g.pw x) (kix o c i j) := by
  simp only [vecMul, dotProduct, convJK_kix]
  rw [sum_pix, Finset.sum_eq_single o]
  · simp [convBackwardW]
  · intro a _ ha
    refine Finset.sum_eq_zero fun r _ => Finset.sum_eq_zero fun s _ => ?_
    simp [ha]
  · simp

theorem convBackwardB_eq (bId : Option Nat) (g : ConvDims) (d : Fin (g.c2 * g.h2 * g.w2) → ℝ) (c : Fin (biasLen bId g.c2)) :
    (if h : c.val < g.c2 then ∑ r : Fin g.h2, ∑ s : Fin g.w2, d (pix ⟨c, h⟩ r s) else 0) = (d ᵥ* convJB bId g.c2 g.h2 g.w2) c := by
  cases bId with
  | none => exact c.elim0
  | some b =>
    have hc : c.val < g.c2 := c.2
    rw [dif_pos hc]
    have := sum_convJB (U := d) (F := fun r s => if h : r < g.h2 ∧ s < g.w2 then d (pix ⟨c, hc⟩ ⟨r, h.1⟩ ⟨s, h.2⟩) else 0) b ⟨c, hc⟩
      (fun r s => by simp)
    refine Eq.trans ?_ this
    rw [Finset.sum_range]
    refine Finset.sum_congr rfl fun r _ => ?_
    rw [Finset.sum_range]
    exact Finset.sum_congr rfl fun s _ => by simp

end Conv2d

theorem vecMul_zero' {k p : Nat} (d : Fin k → ℝ) : d ᵥ* (0 : Matrix (Fin k) (Fin p) ℝ) = fun _ => 0 := by
  funext; simp

mutual
/-- Reverse mode computes vector-matrix products with the matrices of the semantics. -/
theorem Net.backward_eq : {s s' : List Nat} → {n k p : Nat} → (N : Net s n s' k p) → (w : Fin p → ℝ) → (x : Fin n → ℝ) → (d : Fin k → ℝ) →
    N.Unsaturated w x → N.backward w x d = (d ᵥ* N.sem.J w x, d ᵥ* N.sem.JW w x)
  | _, _, _, _, _, .linear _ _ bId i o _ _, w, x, d, _ => by
    simp only [Net.backward, Net.sem, linearSem, Sem.leaf]
    refine Prod.ext rfl ?_
    refine Eq.trans ?_ (vecMul_hcat d _ _).symm
    dsimp only
    refine congrArg₂ Fin.append (funext fun c => ?_) (funext fun c => ?_)
    · simp only [vecMul, dotProduct, mul_ite, mul_zero]
      simp
    · cases bId with
      | none => exact c.elim0
      | some b =>
        have hc : c.val < o := c.2
        simp only [vecMul, dotProduct, mul_ite, mul_zero, mul_one]
        rw [dif_pos hc, Finset.sum_eq_single ⟨c, hc⟩]
        · simp
        · intro a _ ha
          exact if_neg fun h => ha (Fin.ext h.symm)
        · simp
  | _, _, _, _, _, .act a _ _ _ _ _, w, x, d, h => by
    simp only [Net.backward, Net.sem, Act.sem, Sem.leaf0, Sem.leaf]
    simp only [Net.Unsaturated] at h
    refine Prod.ext (funext fun i => ?_) (vecMul_zero' d).symm
    exact (congrArg _ (a.backward_eq (x i) (h i))).trans (vecMul_diag d (fun i => a.deriv (x i)) i).symm
  | _, _, _, _, _, .flatten _ _ _ _ _, w, x, d, _ => by
    simp only [Net.backward, Net.sem, reshapeSem, Sem.leaf0, Sem.leaf]
    exact Prod.ext (Matrix.vecMul_one d).symm (vecMul_zero' d).symm
  | _, _, _, _, _, .reshape _ _ _ _ _ _ _ _ _, w, x, d, _ => by
    simp only [Net.backward, Net.sem, reshapeSem, Sem.leaf0, Sem.leaf]
    exact Prod.ext (Matrix.vecMul_one d).symm (vecMul_zero' d).symm
  | _, _, _, _, _, .l2norm _ eps _ _ _ _ _, w, x, d, h => by
    simp only [Net.backward, Net.sem]
    simp only [Net.Unsaturated] at h
    exact Prod.ext (l2Backward_eq eps x d w h) (vecMul_zero' d).symm
  | _, _, _, _, _, .conv _ _ bId g, w, x, d, _ => by
    simp only [Net.backward, Net.sem, convSem, Sem.leaf]
    refine Prod.ext (Conv2d.convBackward_eq bId g w d) ?_
    refine Eq.trans ?_ (vecMul_hcat d _ _).symm
    dsimp only
    refine congrArg₂ Fin.append (funext fun m => ?_) (funext fun c => Conv2d.convBackwardB_eq bId g d c)
    obtain ⟨o, c, i, j, rfl⟩ := Conv2d.kix_surj m
    rw [← Conv2d.convBackwardW_eq]
    simp [kix]
  | _, _, _, _, _, .upsample _ c h w' r _ _ _ _, w, x, d, _ => by
    simp only [Net.backward, Net.sem, upSem, Sem.leaf0, Sem.leaf]
    refine Prod.ext (funext fun m => ?_) (vecMul_zero' d).symm
    obtain ⟨a, y, z, rfl⟩ := pix_surj m
    simp only [chan_pix, row_pix, col_pix]
    exact (Upsample.sum_upJ d a y z).symm
  | _, _, _, _, _, .maxpool _ g, w, x, d, _ => by
    simp only [Net.backward, Net.sem, poolSem, Sem.leaf0, Sem.leaf]
    refine Prod.ext (funext fun m => ?_) (vecMul_zero' d).symm
    simp only [vecMul, dotProduct]
    exact Finset.sum_congr rfl fun k _ => by simp
  | _, _, _, _, _, .seq _ c, w, x, d, h => by
    simp only [Net.backward, Net.sem]
    exact c.backward_eq w x d (by simpa only [Net.Unsaturated] using h)
  | _, _, _, _, _, .skip _ _ ch, w, x, d, h => by
    simp only [Net.backward, Net.sem, Sem.skip]
    rw [ch.backward_eq w x (wr d) (by simpa only [Net.Unsaturated] using h)]
    rw [vecMul_vcat, vecMul_vcat]
    refine Prod.ext ?_ ?_
    · funext j; simp [wl]
    · funext j; simp
theorem Chain.backward_eq : {s s' : List Nat} → {n k p l : Nat} → (c : Chain s n s' k p l) → (w : Fin p → ℝ) → (x : Fin n → ℝ) → (d : Fin k → ℝ) →
    c.Unsaturated w x → c.backward w x d = (d ᵥ* c.sem.J w x, d ᵥ* c.sem.JW w x)
  | _, _, _, _, _, _, .nil _ _ _ _, w, x, d, _ => by
    simp only [Chain.backward, Chain.sem, Sem.id]
    exact Prod.ext (Matrix.vecMul_one d).symm (vecMul_zero' d).symm
  | _, _, _, _, _, _, .snoc c m, w, x, d, h => by
    simp only [Chain.Unsaturated] at h
    simp only [Chain.backward, Chain.sem, Sem.comp]
    rw [m.backward_eq _ _ d h.2, c.backward_eq _ _ _ h.1, vecMul_hcat]
    simp only [Matrix.vecMul_vecMul]
end

end NNJ
