import Verif.Proofs.Spatial
import Verif.Proofs.ConvParts
import Verif.Proofs.LeafLinear

/-! The Jacobians of `Conv2d` as sums over pixels and kernel entries. -/

namespace NNJ
open Tensor Matrix
namespace Conv2d

variable {bId : Option Nat} {c1 h1 w1 c2 h2 w2 kh kw ph pw : Nat}

@[simp] theorem kix_val (o : Fin c2) (c : Fin c1) (i : Fin kh) (j : Fin kw) :
    ((kix o c i j : Fin (c2 * c1 * kh * kw)) : Nat) = ((o * c1 + c) * kh + i) * kw + j := by
  simp only [kix, finProdFinEquiv_apply_val, pix_val]; ring

theorem kix_surj (k : Fin (c2 * c1 * kh * kw)) : ∃ o c i j, k = kix o c i j := by
  obtain ⟨⟨p, j⟩, rfl⟩ := finProdFinEquiv.surjective k
  obtain ⟨o, c, i, rfl⟩ := pix_surj p
  exact ⟨o, c, i, j, rfl⟩

theorem padAt_nat {h w : Nat} {img : Fin h → Fin w → ℝ} {G : Nat → Nat → ℝ} (e : ∀ (u : Fin h) (v : Fin w), G u v = img u v) (y z : Int) :
    Torch.padGet h w G y z = padAt img y z := by
  unfold Torch.padGet padAt
  split_ifs with h1 h2 h2
  · rw [← e]
  · omega
  · omega
  · rfl

theorem convJK_kix (x : Fin (c1 * h1 * w1) → ℝ) (k : Fin (c2 * h2 * w2)) (o : Fin c2) (c : Fin c1) (i : Fin kh) (j : Fin kw) :
    convJK c1 h1 w1 c2 h2 w2 kh kw ph pw x k (kix o c i j) = if chan k = o then
      padAt (fun (u : Fin h1) (v : Fin w1) => x (pix c u v)) ((row k : Nat) + (i : Nat) - (ph : Int)) ((col k : Nat) + (j : Nat) - (pw : Int))
      else 0 := by
  simp [convJK, kix]

theorem sum_convJK {U : Fin (c2 * h2 * w2) → ℝ} {x : Fin (c1 * h1 * w1) → ℝ} {F G : Nat → Nat → ℝ} (o : Fin c2) (c : Fin c1) (i : Fin kh) (j : Fin kw)
    (eF : ∀ (r : Fin h2) (s : Fin w2), F r s = U (pix o r s)) (eG : ∀ (u : Fin h1) (v : Fin w1), G u v = x (pix c u v)) :
    wp h1 w1 h2 w2 ph pw G F i j = (U ᵥ* convJK c1 h1 w1 c2 h2 w2 kh kw ph pw x) (kix o c i j) := by
  simp only [vecMul, dotProduct, convJK_kix]
  rw [sum_pix, Finset.sum_eq_single o]
  · unfold wp
    rw [Finset.sum_range]
    refine Finset.sum_congr rfl fun r _ => ?_
    rw [Finset.sum_range]
    refine Finset.sum_congr rfl fun s _ => ?_
    simp only [chan_pix, row_pix, col_pix, if_true]
    rw [eF, padAt_nat eG]
    push_cast
    rfl
  · intro a _ ha
    refine Finset.sum_eq_zero fun r _ => Finset.sum_eq_zero fun s _ => ?_
    simp [ha]
  · simp

theorem sq_convJK (x : Fin (c1 * h1 * w1) → ℝ) :
    sq (convJK c1 h1 w1 c2 h2 w2 kh kw ph pw x) = convJK c1 h1 w1 c2 h2 w2 kh kw ph pw fun m => x m * x m := by
  funext k m
  obtain ⟨o, c, i, j, rfl⟩ := kix_surj m
  simp only [sq, convJK_kix, padAt]
  split_ifs <;> simp

theorem sum_convJB {U : Fin (c2 * h2 * w2) → ℝ} {F : Nat → Nat → ℝ} (b : Nat) (o : Fin c2)
    (eF : ∀ (r : Fin h2) (s : Fin w2), F r s = U (pix o r s)) :
    ∑ r ∈ Finset.range h2, ∑ s ∈ Finset.range w2, F r s = (U ᵥ* convJB (some b) c2 h2 w2) o := by
  simp only [vecMul, dotProduct, convJB]
  rw [sum_pix, Finset.sum_eq_single o]
  · rw [Finset.sum_range]
    refine Finset.sum_congr rfl fun r _ => ?_
    rw [Finset.sum_range]
    refine Finset.sum_congr rfl fun s _ => ?_
    simp [eF]
  · intro a _ ha
    refine Finset.sum_eq_zero fun r _ => Finset.sum_eq_zero fun s _ => ?_
    simp only [chan_pix]
    rw [if_neg (fun h => ha (Fin.ext h.symm)), mul_zero]
  · simp

theorem sq_convJB : sq (convJB bId c2 h2 w2) = convJB bId c2 h2 w2 := by
  funext k c
  simp only [sq, convJB]
  split_ifs <;> simp

/-- the kernel as an image with zeros around it -/
theorem convJ_pix (w : Fin (c2 * c1 * kh * kw + biasLen bId c2) → ℝ) (o : Fin c2) (r : Fin h2) (s : Fin w2) (c : Fin c1) (u : Fin h1) (v : Fin w1) :
    convJ bId c1 h1 w1 c2 h2 w2 kh kw ph pw w (pix o r s) (pix c u v)
      = padAt (fun (i : Fin kh) (j : Fin kw) => w (Fin.castAdd _ (kix o c i j))) ((u : Nat) + (ph : Int) - (r : Nat)) ((v : Nat) + (pw : Int) - (s : Nat)) := by
  obtain ⟨G, hG⟩ : ∃ G : Nat → Nat → ℝ, ∀ (i : Fin kh) (j : Fin kw), G i j = w (Fin.castAdd _ (kix o c i j)) :=
    ⟨fun i j => if h : i < kh ∧ j < kw then w (Fin.castAdd (biasLen bId c2) (kix o c ⟨i, h.1⟩ ⟨j, h.2⟩)) else 0,
      fun i j => by simp⟩
  rw [← padAt_nat hG, padGet_sum, Finset.sum_range]
  simp only [convJ, row_pix, col_pix, chan_pix]
  refine Finset.sum_congr rfl fun i _ => ?_
  rw [Finset.sum_range]
  refine Finset.sum_congr rfl fun j _ => ?_
  rw [hG]
  refine if_congr ?_ rfl rfl
  omega

theorem sq_convJ (w : Fin (c2 * c1 * kh * kw + biasLen bId c2) → ℝ) :
    sq (convJ bId c1 h1 w1 c2 h2 w2 kh kw ph pw w) = convJ bId c1 h1 w1 c2 h2 w2 kh kw ph pw fun m => w m * w m := by
  funext k m
  obtain ⟨o, r, s, rfl⟩ := pix_surj k
  obtain ⟨c, u, v, rfl⟩ := pix_surj m
  simp only [sq, convJ_pix, padAt]
  split_ifs <;> simp

theorem sum_convJ {U : Fin (c2 * h2 * w2) → ℝ} {w : Fin (c2 * c1 * kh * kw + biasLen bId c2) → ℝ} {F : Nat → Nat → Nat → ℝ}
    {K : Nat → Nat → Nat → ℝ} (c : Fin c1) (y : Fin h1) (z : Fin w1)
    (eF : ∀ (o : Fin c2) (r : Fin h2) (s : Fin w2), F o r s = U (pix o r s))
    (eK : ∀ (o : Fin c2) (i : Fin kh) (j : Fin kw), K o i j = w (Fin.castAdd _ (kix o c i j))) :
    (∑ o ∈ Finset.range c2, ∑ i ∈ Finset.range kh, ∑ j ∈ Finset.range kw,
      Torch.padGet h2 w2 (F o) ((y : Nat) + (ph : Int) - (i : Nat)) ((z : Nat) + (pw : Int) - (j : Nat)) * K o i j)
    = (U ᵥ* convJ bId c1 h1 w1 c2 h2 w2 kh kw ph pw w) (pix c y z) := by
  simp only [vecMul, dotProduct]
  rw [sum_pix, Finset.sum_range]
  refine Finset.sum_congr rfl fun o _ => ?_
  have e : ∀ i ∈ Finset.range kh, ∀ j ∈ Finset.range kw,
      Torch.padGet h2 w2 (F o) ((y : Nat) + (ph : Int) - (i : Nat)) ((z : Nat) + (pw : Int) - (j : Nat)) * K o i j
      = ∑ r : Fin h2, ∑ s : Fin w2, if (r : Nat) + i = y + ph ∧ (s : Nat) + j = z + pw then U (pix o r s) * K o i j else 0 := by
    intro i _ j _
    rw [padGet_sum, Finset.sum_mul, Finset.sum_range]
    refine Finset.sum_congr rfl fun r _ => ?_
    rw [Finset.sum_mul, Finset.sum_range]
    refine Finset.sum_congr rfl fun s _ => ?_
    rw [ite_mul, zero_mul, eF]
    refine if_congr ?_ rfl rfl
    omega
  rw [Finset.sum_congr rfl fun i hi => Finset.sum_congr rfl fun j hj => e i hi j hj]
  rw [Finset.sum_congr rfl fun i _ => Finset.sum_comm, Finset.sum_comm]
  refine Finset.sum_congr rfl fun r _ => ?_
  rw [Finset.sum_congr rfl fun i _ => Finset.sum_comm, Finset.sum_comm]
  refine Finset.sum_congr rfl fun s _ => ?_
  simp only [convJ, row_pix, col_pix, chan_pix, Finset.mul_sum, mul_ite, mul_zero]
  rw [Finset.sum_range]
  refine Finset.sum_congr rfl fun i _ => ?_
  rw [Finset.sum_range]
  refine Finset.sum_congr rfl fun j _ => ?_
  rw [eK]

end Conv2d
end NNJ
