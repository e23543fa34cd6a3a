import Verif.Proofs.Deriv
import Verif.Proofs.ConvSums
import Verif.Proofs.PoolCore

/-! Derivatives of Conv2d, Upsample and MaxPool2d. -/

namespace NNJ
open Matrix

section
variable {n k p : Nat}

/-- a map that copies entries of its argument -/
theorem copy_hasFDerivAt {f : (Fin n → ℝ) → Fin k → ℝ} {J : Matrix (Fin k) (Fin n) ℝ} {x : Fin n → ℝ} {e : Fin k → Fin n}
    (hf : ∀ i, ∀ᶠ y in nhds x, f y i = y (e i)) (hJ : ∀ i m, J i m = if m = e i then 1 else 0) : HasFDerivAt f (linMap J) x := by
  rw [hasFDerivAt_pi']
  intro i
  refine HasFDerivAt.congr_of_eventuallyEq (f := fun y : Fin n → ℝ => y (e i)) ?_ (hf i)
  refine HasFDerivAt.congr_fderiv ((ContinuousLinearMap.proj (R := ℝ) (φ := fun _ : Fin n => ℝ) (e i)).hasFDerivAt) ?_
  refine ContinuousLinearMap.ext fun z => ?_
  simp [mulVec, dotProduct, hJ]

/-- a layer that is linear in its weights, the matrix having entries of the input (or constants) -/
theorem Sem.Diff.bilinear {f : (Fin p → ℝ) → (Fin n → ℝ) → Fin k → ℝ} {J : (Fin p → ℝ) → Matrix (Fin k) (Fin n) ℝ}
    {JW : (Fin n → ℝ) → Matrix (Fin k) (Fin p) ℝ} {D : (Fin n → ℝ) → Matrix (Fin k) (Fin p) ℝ}
    (hf : ∀ w x, f w x = JW x *ᵥ w) (hD : ∀ w x, D x *ᵥ w = J w *ᵥ x)
    (he : ∀ i m, (∃ c, ∀ x, JW x i m = c ∧ D x i m = 0) ∨ ∃ j, ∀ x, JW x i m = x j ∧ D x i m = x j) :
    (Sem.leaf f (fun w _ => J w) (fun _ x => JW x) (fun _ _ => True)).Diff := by
  intro w x _
  rw [Sem.DiffAt, hasFDerivAt_pi']
  intro i
  have hent : ∀ m : Fin p, ∃ L : ((Fin p → ℝ) × (Fin n → ℝ)) →L[ℝ] ℝ,
      HasFDerivAt (fun z : (Fin p → ℝ) × (Fin n → ℝ) => JW z.2 i m) L (w, x) ∧ ∀ z, L z = D z.2 i m := by
    intro m
    rcases he i m with ⟨c, hc⟩ | ⟨j, hj⟩
    · refine ⟨0, ?_, fun z => ?_⟩
      · simp only [fun y => (hc y).1]
        exact hasFDerivAt_const c _
      · simp [(hc z.2).2]
    · refine ⟨(ContinuousLinearMap.proj (R := ℝ) (φ := fun _ => ℝ) j).comp (ContinuousLinearMap.snd ℝ (Fin p → ℝ) (Fin n → ℝ)), ?_, fun z => ?_⟩
      · simp only [fun y => (hj y).1]
        exact ((ContinuousLinearMap.proj (R := ℝ) (φ := fun _ => ℝ) j).comp (ContinuousLinearMap.snd ℝ (Fin p → ℝ) (Fin n → ℝ))).hasFDerivAt
      · simp [(hj z.2).2]
  choose L hL hLz using hent
  have hw : ∀ m : Fin p, HasFDerivAt (fun z : (Fin p → ℝ) × (Fin n → ℝ) => z.1 m)
      ((ContinuousLinearMap.proj (R := ℝ) (φ := fun _ => ℝ) m).comp (ContinuousLinearMap.fst ℝ (Fin p → ℝ) (Fin n → ℝ))) (w, x) :=
    fun m => ((ContinuousLinearMap.proj (R := ℝ) (φ := fun _ => ℝ) m).comp (ContinuousLinearMap.fst ℝ (Fin p → ℝ) (Fin n → ℝ))).hasFDerivAt
  have hs := HasFDerivAt.fun_sum (u := Finset.univ) fun m _ => (hL m).mul (hw m)
  refine HasFDerivAt.congr_fderiv (hs.congr_of_eventuallyEq (Filter.Eventually.of_forall fun z => ?_)) ?_
  · simp only [Sem.leaf, hf, mulVec, dotProduct]; rfl
  · refine ContinuousLinearMap.ext fun z => ?_
    have h1 := congrFun (hD w z.2) i
    simp only [mulVec, dotProduct] at h1
    simp only [Sem.leaf, _root_.sum_apply, _root_.add_apply, _root_.smul_apply, ContinuousLinearMap.comp_apply, ContinuousLinearMap.proj_apply,
      ContinuousLinearMap.coe_fst', smul_eq_mul, hLz, jointMap_apply, Pi.add_apply, mulVec, dotProduct, ← h1, Finset.sum_add_distrib]
    congr 1
    exact Finset.sum_congr rfl fun m _ => mul_comm _ _

end

theorem upSem_diff {c h w s : Nat} : (upSem c h w s).Diff :=
  Sem.Diff.leaf0 fun _ _ => copy_hasFDerivAt (e := upSrc) (fun _ => Filter.Eventually.of_forall fun _ => rfl) fun _ _ => rfl

/-- near a point with strict maxima, the maxima stay where they are -/
theorem poolPos_eventually {a : Torch.PoolArgs} {c h w h2 w2 : Nat} (hf : PoolSizes a h w h2 w2) {x : Fin (c * h * w) → ℝ}
    (k : Fin (c * h2 * w2))
    (hx : ∀ q ∈ Torch.window h w a (row k) (col k), q ≠ poolPos a x k → plane x (chan k) q < plane x (chan k) (poolPos a x k)) :
    ∀ᶠ y in nhds x, poolPos a y k = poolPos a x k := by
  have hcont : ∀ q, Continuous fun y : Fin (c * h * w) → ℝ => plane y (chan k) q := by
    intro q
    unfold plane
    split
    · exact continuous_apply _
    · exact continuous_const
  have hall : ∀ᶠ y in nhds x, ∀ q ∈ (Torch.window h w a (row k) (col k)).toFinset, q ≠ poolPos a x k →
      plane y (chan k) q < plane y (chan k) (poolPos a x k) := by
    rw [Filter.eventually_all_finset]
    intro q hq
    by_cases e : q = poolPos a x k
    · exact Filter.Eventually.of_forall fun y h => (h e).elim
    · have := (hcont q).continuousAt.eventually_lt (hcont (poolPos a x k)).continuousAt (hx q (List.mem_toFinset.1 hq) e)
      exact this.mono fun y h _ => h
  refine hall.mono fun y hy => ?_
  by_contra hne
  have h1 := hy (poolPos a y k) (List.mem_toFinset.2 (poolPos_mem hf y k)) hne
  have h2 : plane y (chan k) (poolPos a x k) ≤ plane y (chan k) (poolPos a y k) := le_argmax _ (poolPos_mem hf x k)
  exact absurd h1 (not_lt.2 h2)

theorem poolSem_diff {a : Torch.PoolArgs} {c h w h2 w2 : Nat} (hf : PoolSizes a h w h2 w2) : (poolSem a c h w h2 w2).Diff := by
  refine Sem.Diff.leaf0 fun x hx => ?_
  refine copy_hasFDerivAt (e := fun k => ⟨tgt a x k, tgt_lt hf x k⟩) (fun k => ?_) fun k m => ?_
  · refine (poolPos_eventually hf k (hx k)).mono fun y hy => ?_
    rw [hy]
    exact dif_pos (tgt_lt hf x k)
  · simp only [Fin.ext_iff, tgt]

section
variable {c1 h1 w1 c2 h2 w2 kh kw ph pw : Nat}

theorem padAt_entry (c : Fin c1) (y z : Int) : (∀ x : Fin (c1 * h1 * w1) → ℝ, padAt (fun (u : Fin h1) (v : Fin w1) => x (pix c u v)) y z = 0) ∨
    ∃ j, ∀ x : Fin (c1 * h1 * w1) → ℝ, padAt (fun (u : Fin h1) (v : Fin w1) => x (pix c u v)) y z = x j := by
  by_cases hc : (0 ≤ y ∧ y < h1) ∧ (0 ≤ z ∧ z < w1)
  · exact .inr ⟨_, fun x => by rw [padAt, dif_pos hc]⟩
  · exact .inl fun x => by rw [padAt, dif_neg hc]

theorem sum_kix {M : Type} [AddCommMonoid M] (g : Fin (c2 * c1 * kh * kw) → M) :
    ∑ k, g k = ∑ o : Fin c2, ∑ c : Fin c1, ∑ i : Fin kh, ∑ j : Fin kw, g (kix o c i j) := by
  rw [← finProdFinEquiv.sum_comp, Fintype.sum_prod_type, sum_pix]
  rfl

theorem convJK_mulVec (x : Fin (c1 * h1 * w1) → ℝ) (v : Fin (c2 * c1 * kh * kw) → ℝ) (k : Fin (c2 * h2 * w2)) :
    (convJK c1 h1 w1 c2 h2 w2 kh kw ph pw x *ᵥ v) k = ∑ c : Fin c1, ∑ i : Fin kh, ∑ j : Fin kw,
      padAt (fun (u : Fin h1) (v : Fin w1) => x (pix c u v)) ((row k : Nat) + (i : Nat) - (ph : Int)) ((col k : Nat) + (j : Nat) - (pw : Int))
        * v (kix (chan k) c i j) := by
  simp only [mulVec, dotProduct]
  rw [sum_kix, Finset.sum_eq_single (chan k)]
  · simp only [Conv2d.convJK_kix, if_true]
  · intro o _ ho
    refine Finset.sum_eq_zero fun c _ => Finset.sum_eq_zero fun i _ => Finset.sum_eq_zero fun j _ => ?_
    rw [Conv2d.convJK_kix, if_neg (Ne.symm ho), zero_mul]
  · simp

theorem convJB_mulVec (bId : Option Nat) (v : Fin (biasLen bId c2) → ℝ) (k : Fin (c2 * h2 * w2)) :
    (convJB bId c2 h2 w2 *ᵥ v) k = if h : (chan k : Nat) < biasLen bId c2 then v ⟨chan k, h⟩ else 0 := by
  simp only [mulVec, dotProduct, convJB]
  by_cases h : (chan k : Nat) < biasLen bId c2
  · rw [dif_pos h, Finset.sum_eq_single ⟨chan k, h⟩]
    · simp
    · intro e _ he
      rw [if_neg fun h' => he (Fin.ext h'), zero_mul]
    · simp
  · rw [dif_neg h]
    exact Finset.sum_eq_zero fun e _ => by rw [if_neg (by have := e.2; omega), zero_mul]

/-- the value at a pixel of the padded image as a sum over the pixels of the image -/
theorem padAt_sum {h w : Nat} (img : Fin h → Fin w → ℝ) (y z : Nat) (p q : Nat) :
    padAt img ((y : Int) - (p : Int)) ((z : Int) - (q : Int)) = ∑ u : Fin h, ∑ v : Fin w, if y = u + p ∧ z = v + q then img u v else 0 := by
  by_cases hc : (0 ≤ (y : Int) - p ∧ (y : Int) - p < h) ∧ (0 ≤ (z : Int) - q ∧ (z : Int) - q < w)
  · rw [padAt, dif_pos hc]
    rw [Finset.sum_eq_single ⟨((y : Int) - p).toNat, by omega⟩, Finset.sum_eq_single ⟨((z : Int) - q).toNat, by omega⟩]
    · rw [if_pos]
      constructor <;> simp only <;> omega
    · intro v _ hv
      rw [if_neg]
      rintro ⟨_, h2⟩
      exact hv (Fin.ext (by simp only; omega))
    · simp
    · intro u _ hu
      refine Finset.sum_eq_zero fun v _ => ?_
      rw [if_neg]
      rintro ⟨h1, _⟩
      exact hu (Fin.ext (by simp only; omega))
    · simp
  · rw [padAt, dif_neg hc]
    refine (Finset.sum_eq_zero fun u _ => Finset.sum_eq_zero fun v _ => ?_).symm
    rw [if_neg]
    rintro ⟨h1, h2⟩
    have := u.2; have := v.2
    omega

theorem convJK_convJ (bId : Option Nat) (w : Fin (c2 * c1 * kh * kw + biasLen bId c2) → ℝ) (x : Fin (c1 * h1 * w1) → ℝ) :
    convJK c1 h1 w1 c2 h2 w2 kh kw ph pw x *ᵥ wl w = convJ bId c1 h1 w1 c2 h2 w2 kh kw ph pw w *ᵥ x := by
  funext k
  rw [convJK_mulVec]
  simp only [mulVec, dotProduct, convJ]
  rw [sum_pix]
  simp only [row_pix, col_pix, chan_pix]
  refine Finset.sum_congr rfl fun c _ => ?_
  have e : ∀ (i : Fin kh) (j : Fin kw), padAt (fun (u : Fin h1) (v : Fin w1) => x (pix c u v)) ((row k : Nat) + (i : Nat) - (ph : Int)) ((col k : Nat) + (j : Nat) - (pw : Int))
        * wl w (kix (chan k) c i j) = ∑ u : Fin h1, ∑ v : Fin w1,
      (if (row k : Nat) + (i : Nat) = u + ph ∧ (col k : Nat) + (j : Nat) = v + pw then w (Fin.castAdd _ (kix (chan k) c i j)) else 0) * x (pix c u v) := by
    intro i j
    have := padAt_sum (fun (u : Fin h1) (v : Fin w1) => x (pix c u v)) ((row k : Nat) + i) ((col k : Nat) + j) ph pw
    rw [Nat.cast_add, Nat.cast_add] at this
    rw [this, Finset.sum_mul]
    refine Finset.sum_congr rfl fun u _ => ?_
    rw [Finset.sum_mul]
    refine Finset.sum_congr rfl fun v _ => ?_
    split_ifs
    · exact mul_comm _ _
    · simp
  simp only [e]
  simp only [Finset.sum_mul]
  calc ∑ i : Fin kh, ∑ j : Fin kw, ∑ u : Fin h1, ∑ v : Fin w1,
        (if (row k : Nat) + (i : Nat) = u + ph ∧ (col k : Nat) + (j : Nat) = v + pw then w (Fin.castAdd _ (kix (chan k) c i j)) else 0) * x (pix c u v)
      = ∑ i : Fin kh, ∑ u : Fin h1, ∑ j : Fin kw, ∑ v : Fin w1, _ := Finset.sum_congr rfl fun i _ => Finset.sum_comm
    _ = ∑ u : Fin h1, ∑ i : Fin kh, ∑ j : Fin kw, ∑ v : Fin w1, _ := Finset.sum_comm
    _ = ∑ u : Fin h1, ∑ i : Fin kh, ∑ v : Fin w1, ∑ j : Fin kw, _ :=
        Finset.sum_congr rfl fun u _ => Finset.sum_congr rfl fun i _ => Finset.sum_comm
    _ = _ := Finset.sum_congr rfl fun u _ => Finset.sum_comm

theorem convSem_diff (bId : Option Nat) : (convSem bId c1 h1 w1 c2 h2 w2 kh kw ph pw).Diff := by
  refine Sem.Diff.bilinear (D := fun x => hcat (convJK c1 h1 w1 c2 h2 w2 kh kw ph pw x) 0) (fun w x => ?_) (fun w x => ?_) fun i m => ?_
  · funext k
    rw [hcat_mulVec, Pi.add_apply, convJK_mulVec, convJB_mulVec]
    rfl
  · rw [hcat_mulVec, convJK_convJ bId, zero_mulVec, add_zero]
  · refine Fin.addCases (fun m => ?_) (fun m => ?_) m
    · obtain ⟨o, c, i', j', rfl⟩ := Conv2d.kix_surj m
      simp only [hcat, Fin.append_left, Conv2d.convJK_kix]
      by_cases ho : chan i = o
      · simp only [if_pos ho]
        rcases padAt_entry (h1 := h1) (w1 := w1) c ((row i : Nat) + (i' : Nat) - (ph : Int)) ((col i : Nat) + (j' : Nat) - (pw : Int)) with h | ⟨j, h⟩
        · exact .inl ⟨0, fun x => ⟨h x, h x⟩⟩
        · exact .inr ⟨j, fun x => ⟨h x, h x⟩⟩
      · simp only [if_neg ho]
        exact .inl ⟨0, fun x => ⟨rfl, trivial⟩⟩
    · simp only [hcat, Fin.append_right]
      exact .inl ⟨_, fun x => ⟨rfl, rfl⟩⟩

end

end NNJ
