import Verif.Spec.Hessian
import Verif.Proofs.LogLikGrad
import Verif.Proofs.DerivSpatial

/-! Piecewise linear networks are locally affine in the input and in the weights of each layer. -/

namespace NNJ
open Matrix Filter

variable {n l k p q : Nat}

/-- locally affine in the input -/
def Sem.AffI (S : Sem n k p) (w : Fin p → ℝ) (x : Fin n → ℝ) : Prop :=
  ∀ᶠ z in nhds x, S.f w z = S.f w x + S.J w x *ᵥ (z - x)

/-- along directions within one layer, locally affine in the weights -/
def Sem.AffW (S : Sem n k p) (w : Fin p → ℝ) (x : Fin n → ℝ) : Prop :=
  ∀ v : Fin p → ℝ, (∀ i j, v i ≠ 0 → v j ≠ 0 → S.same i j = true) →
    ∀ᶠ t in nhds (0 : ℝ), S.f (w + t • v) x = S.f w x + t • (S.JW w x *ᵥ v)

/-- both at every point where the network is differentiable -/
def Sem.Aff (S : Sem n k p) : Prop := ∀ w x, S.smooth w x → S.AffI w x ∧ S.AffW w x

theorem Sem.AffI.tendsto {S : Sem n k p} {w x} (h : S.AffI w x) : Tendsto (fun z => S.f w z) (nhds x) (nhds (S.f w x)) := by
  have h1 : ContinuousAt (fun z => S.f w x + S.J w x *ᵥ (z - x)) x := by
    have : Continuous fun z : Fin n → ℝ => S.f w x + linMap (S.J w x) (z - x) := by fun_prop
    exact this.continuousAt
  have h2 := h1.tendsto
  simp only [sub_self, mulVec_zero, add_zero] at h2
  exact h2.congr' (h.mono fun z hz => hz.symm)

theorem wl_add_smul (w v : Fin (p + q) → ℝ) (t : ℝ) : wl (w + t • v) = wl w + t • wl v := rfl
theorem wr_add_smul (w v : Fin (p + q) → ℝ) (t : ℝ) : wr (w + t • v) = wr w + t • wr v := rfl

theorem Sem.Aff.comp {S1 : Sem n l p} {S2 : Sem l k q} (h1 : S1.Aff) (h2 : S2.Aff) : (S1.comp S2).Aff := by
  rintro w x ⟨hs1, hs2⟩
  obtain ⟨i1, w1⟩ := h1 _ _ hs1
  obtain ⟨i2, w2⟩ := h2 _ _ hs2
  refine ⟨?_, fun v hv => ?_⟩
  · filter_upwards [i1, i1.tendsto.eventually i2] with z hz1 hz2
    simp only [Sem.comp]
    rw [hz2, hz1, add_sub_cancel_left, mulVec_mulVec]
  · have hz : wl v = 0 ∨ wr v = 0 := by
      by_contra hc
      push Not at hc
      obtain ⟨i, hi⟩ := Function.ne_iff.1 hc.1
      obtain ⟨j, hj⟩ := Function.ne_iff.1 hc.2
      have := hv (Fin.castAdd q i) (Fin.natAdd p j) hi hj
      simp [Sem.comp] at this
    have hl : ∀ i j, wl v i ≠ 0 → wl v j ≠ 0 → S1.same i j = true := fun i j hi hj => by
      have := hv (Fin.castAdd q i) (Fin.castAdd q j) hi hj
      simpa [Sem.comp] using this
    have hr : ∀ i j, wr v i ≠ 0 → wr v j ≠ 0 → S2.same i j = true := fun i j hi hj => by
      have := hv (Fin.natAdd p i) (Fin.natAdd p j) hi hj
      simpa [Sem.comp] using this
    rcases hz with hz | hz
    · filter_upwards [w2 _ hr] with t ht
      simp only [Sem.comp, wl_add_smul, wr_add_smul, hz, smul_zero, add_zero, hcat_mulVec, mulVec_zero, zero_add]
      exact ht
    · have hc : Tendsto (fun t : ℝ => S1.f (wl w) x + t • (S1.JW (wl w) x *ᵥ wl v)) (nhds 0) (nhds (S1.f (wl w) x)) := by
        have : Continuous fun t : ℝ => S1.f (wl w) x + t • (S1.JW (wl w) x *ᵥ wl v) := by fun_prop
        simpa using this.tendsto 0
      filter_upwards [w1 _ hl, hc.eventually i2] with t ht1 ht2
      simp only [Sem.comp, wl_add_smul, wr_add_smul, hz, smul_zero, add_zero, hcat_mulVec, mulVec_zero]
      rw [ht1, ht2, add_sub_cancel_left, mulVec_smul, mulVec_mulVec]

theorem Sem.Aff.skip {S : Sem n k p} (h : S.Aff) : S.skip.Aff := by
  intro w x hs
  obtain ⟨hi, hw⟩ := h w x hs
  refine ⟨?_, fun v hv => ?_⟩
  · filter_upwards [hi] with z hz
    funext i
    refine Fin.addCases (fun i => ?_) (fun i => ?_) i
    · simp [Sem.skip, vcat_mulVec, Fin.append_left]
    · simp [Sem.skip, vcat_mulVec, Fin.append_right, hz]
  · filter_upwards [hw v hv] with t ht
    funext i
    refine Fin.addCases (fun i => ?_) (fun i => ?_) i
    · simp [Sem.skip, vcat_mulVec, Fin.append_left]
    · simp [Sem.skip, vcat_mulVec, Fin.append_right, ht]

theorem Sem.Aff.id : (Sem.id n).Aff := fun w x _ =>
  ⟨Eventually.of_forall fun z => by simp [Sem.id], fun v _ => Eventually.of_forall fun t => by simp [Sem.id]⟩

theorem Sem.Aff.leaf0 {f : (Fin n → ℝ) → Fin k → ℝ} {J : (Fin n → ℝ) → Matrix (Fin k) (Fin n) ℝ} {smooth : (Fin n → ℝ) → Prop}
    (h : ∀ x, smooth x → ∀ᶠ z in nhds x, f z = f x + J x *ᵥ (z - x)) : (Sem.leaf0 f J smooth).Aff := fun w x hs =>
  ⟨h x hs, fun v _ => Eventually.of_forall fun t => by simp [Sem.leaf0, Sem.leaf]⟩

/-- a map that copies entries -/
theorem copy_affine {f : (Fin n → ℝ) → Fin k → ℝ} {J : Matrix (Fin k) (Fin n) ℝ} {x : Fin n → ℝ} {e : Fin k → Fin n}
    (hf : ∀ i, ∀ᶠ y in nhds x, f y i = y (e i)) (hJ : ∀ i m, J i m = if m = e i then 1 else 0) :
    ∀ᶠ z in nhds x, f z = f x + J *ᵥ (z - x) := by
  have h1 := eventually_all.2 hf
  have h2 := h1.self_of_nhds
  filter_upwards [h1] with z hz
  funext i
  simp [mulVec, dotProduct, hJ, hz i, h2 i]

theorem linearSem_weight (bId : Option Nat) (i o : Nat) (w : Fin (o * i + biasLen bId o) → ℝ) (x : Fin i → ℝ) :
    (linearSem bId i o).f w x = (linearSem bId i o).JW w x *ᵥ w := by
  funext c
  have e := congrFun (hcat_mulVec (p := o * i) (fun k c => if (finProdFinEquiv.symm c).1 = k then x (finProdFinEquiv.symm c).2 else 0)
      (fun k c => if c.val = k.val then (1 : ℝ) else 0) w) c
  refine Eq.trans ?_ e.symm
  simp only [Pi.add_apply, linearSem, Sem.leaf, linearF]
  congr 1
  · simp only [mulVec, dotProduct]
    rw [← finProdFinEquiv.sum_comp, Fintype.sum_prod_type, Finset.sum_eq_single c]
    · simp only [Equiv.symm_apply_apply, if_true]
      exact Finset.sum_congr rfl fun j _ => mul_comm _ _
    · intro a _ ha
      exact Finset.sum_eq_zero fun j _ => by simp only [Equiv.symm_apply_apply, if_neg ha, zero_mul]
    · simp
  · simp only [mulVec, dotProduct]
    by_cases h : c.val < biasLen bId o
    · rw [dif_pos h, Finset.sum_eq_single ⟨c, h⟩]
      · simp [wr]
      · intro e _ he
        rw [if_neg fun h' => he (Fin.ext h'), zero_mul]
      · simp
    · rw [dif_neg h]
      exact (Finset.sum_eq_zero fun e _ => by rw [if_neg (by have := e.2; omega), zero_mul]).symm

theorem linearSem_input (bId : Option Nat) (i o : Nat) (w : Fin (o * i + biasLen bId o) → ℝ) (x z : Fin i → ℝ) :
    (linearSem bId i o).f w z = (linearSem bId i o).f w x + (linearSem bId i o).J w x *ᵥ (z - x) := by
  funext c
  simp only [linearSem, Sem.leaf, linearF, Pi.add_apply, mulVec, dotProduct, Pi.sub_apply, mul_sub, Finset.sum_sub_distrib]
  ring

section
variable {c1 h1 w1 c2 h2 w2 kh kw ph pw : Nat}

theorem convSem_weight (bId : Option Nat) (w : Fin (c2 * c1 * kh * kw + biasLen bId c2) → ℝ) (x : Fin (c1 * h1 * w1) → ℝ) :
    (convSem bId c1 h1 w1 c2 h2 w2 kh kw ph pw).f w x = (convSem bId c1 h1 w1 c2 h2 w2 kh kw ph pw).JW w x *ᵥ w := by
  funext k
  show _ = (hcat _ _ *ᵥ w) k
  rw [hcat_mulVec, Pi.add_apply, convJK_mulVec, convJB_mulVec]
  rfl

theorem convSem_input (bId : Option Nat) (w : Fin (c2 * c1 * kh * kw + biasLen bId c2) → ℝ) (x z : Fin (c1 * h1 * w1) → ℝ) :
    (convSem bId c1 h1 w1 c2 h2 w2 kh kw ph pw).f w z =
      (convSem bId c1 h1 w1 c2 h2 w2 kh kw ph pw).f w x + (convSem bId c1 h1 w1 c2 h2 w2 kh kw ph pw).J w x *ᵥ (z - x) := by
  rw [convSem_weight, convSem_weight]
  show hcat _ _ *ᵥ w = hcat _ _ *ᵥ w + convJ bId c1 h1 w1 c2 h2 w2 kh kw ph pw w *ᵥ (z - x)
  rw [hcat_mulVec, hcat_mulVec, convJK_convJ bId, convJK_convJ bId, mulVec_sub]
  abel

end

theorem Sem.Aff.leaf {f : (Fin p → ℝ) → (Fin n → ℝ) → Fin k → ℝ} {J JW} {smooth}
    (hJW : ∀ w w' x, JW w x = JW w' x) (hw : ∀ w x, f w x = JW w x *ᵥ w) (hx : ∀ w x z, f w z = f w x + J w x *ᵥ (z - x)) :
    (Sem.leaf f J JW smooth).Aff := fun w x _ =>
  ⟨Eventually.of_forall fun z => hx w x z, fun v _ => Eventually.of_forall fun t => by
    simp only [Sem.leaf]
    rw [hw, hw, hJW (w + t • v) w, mulVec_add, mulVec_smul]⟩

theorem actSem_aff {a : Act} (ha : a.PieceLin) : (a.sem n).Aff := by
  refine Sem.Aff.leaf0 fun x hx => ?_
  have h1 : ∀ i, ∀ᶠ b in nhds (x i), a.fn b = a.fn (x i) + a.deriv (x i) * (b - x i) := by
    intro i
    have hi := hx i
    cases a with
    | relu =>
      simp only [Act.smoothAt] at hi
      rcases lt_or_gt_of_ne hi with h | h
      · filter_upwards [gt_mem_nhds h] with y hy
        simp [Act.fn, Act.deriv, max_eq_right hy.le, max_eq_right h.le, not_lt.2 h.le]
      · filter_upwards [lt_mem_nhds h] with y hy
        simp [Act.fn, Act.deriv, max_eq_left hy.le, max_eq_left h.le, h]
    | custom f g => exact ha _ hi
    | _ => exact ha.elim
  have h2 : ∀ᶠ z in nhds x, ∀ i, a.fn (z i) = a.fn (x i) + a.deriv (x i) * (z i - x i) :=
    eventually_all.2 fun i => (continuous_apply i).continuousAt.eventually (h1 i)
  filter_upwards [h2] with z hz
  funext i
  simp [mulVec_diagonal, hz i]

mutual
theorem Net.aff : {s s' : List Nat} → {n k p : Nat} → (N : Net s n s' k p) → N.PieceLin → N.sem.Aff
  | _, _, _, _, _, .linear _ _ bId i o _ _, _ => Sem.Aff.leaf (fun _ _ _ => rfl) (linearSem_weight bId i o) (linearSem_input bId i o)
  | _, _, _, _, _, .act _ _ _ _ _ _, h => actSem_aff h
  | _, _, _, _, _, .flatten _ _ _ _ _, _ => Sem.Aff.leaf0 fun x _ => Eventually.of_forall fun z => by simp
  | _, _, _, _, _, .reshape _ _ _ _ _ _ _ _ _, _ => Sem.Aff.leaf0 fun x _ => Eventually.of_forall fun z => by simp
  | _, _, _, _, _, .l2norm _ _ _ _ _ _ _, h => h.elim
  | _, _, _, _, _, .conv _ _ bId g, _ => Sem.Aff.leaf (fun _ _ _ => rfl) (fun w x => convSem_weight bId w x) (fun w x z => convSem_input bId w x z)
  | _, _, _, _, _, .upsample _ _ _ _ _ _ _ _ _, _ =>
    Sem.Aff.leaf0 fun _ _ => copy_affine (e := upSrc) (fun _ => Eventually.of_forall fun _ => rfl) fun _ _ => rfl
  | _, _, _, _, _, .maxpool _ g, _ => by
    refine Sem.Aff.leaf0 fun x hx => ?_
    refine copy_affine (e := fun k => ⟨tgt g.a x k, tgt_lt g.fits.toPoolSizes x k⟩) (fun k => ?_) fun k m => ?_
    · refine (poolPos_eventually g.fits.toPoolSizes k (hx k)).mono fun y hy => ?_
      rw [hy]
      exact dif_pos (tgt_lt g.fits.toPoolSizes x k)
    · simp only [Fin.ext_iff, tgt]
  | _, _, _, _, _, .seq _ c, h => Chain.aff c h
  | _, _, _, _, _, .skip _ _ ch, h => (Chain.aff ch h).skip
theorem Chain.aff : {s s' : List Nat} → {n k p l : Nat} → (c : Chain s n s' k p l) → c.PieceLin → c.sem.Aff
  | _, _, _, _, _, _, .nil _ _ _ _, _ => Sem.Aff.id
  | _, _, _, _, _, _, .snoc c m, h => (Chain.aff c h.1).comp (Net.aff m h.2)
end

mutual
theorem Net.same_refl : {s s' : List Nat} → {n k p : Nat} → (N : Net s n s' k p) → ∀ i, N.sem.same i i = true
  | _, _, _, _, _, .linear _ _ _ _ _ _ _, _ => rfl
  | _, _, _, _, _, .act _ _ _ _ _ _, i => i.elim0
  | _, _, _, _, _, .flatten _ _ _ _ _, i => i.elim0
  | _, _, _, _, _, .reshape _ _ _ _ _ _ _ _ _, i => i.elim0
  | _, _, _, _, _, .l2norm _ _ _ _ _ _ _, i => i.elim0
  | _, _, _, _, _, .conv _ _ _ _, _ => rfl
  | _, _, _, _, _, .upsample _ _ _ _ _ _ _ _ _, i => i.elim0
  | _, _, _, _, _, .maxpool _ _, i => i.elim0
  | _, _, _, _, _, .seq _ c, i => Chain.same_refl c i
  | _, _, _, _, _, .skip _ _ ch, i => Chain.same_refl ch i
theorem Chain.same_refl : {s s' : List Nat} → {n k p l : Nat} → (c : Chain s n s' k p l) → ∀ i, c.sem.same i i = true
  | _, _, _, _, _, _, .nil _ _ _ _, i => i.elim0
  | _, _, _, _, _, _, .snoc c m, i => by
    refine Fin.addCases (fun i => ?_) (fun i => ?_) i
    · simpa [Chain.sem, Sem.comp] using Chain.same_refl c i
    · simpa [Chain.sem, Sem.comp] using Net.same_refl m i
end

/-- a single layer is affine in its weights, everywhere -/
theorem Net.weight_affine {s s' : List Nat} {n k p : Nat} (N : Net s n s' k p) (hN : ¬ N.Container) (w w' : Fin p → ℝ) (x : Fin n → ℝ) :
    N.sem.f w' x = N.sem.f w x + N.sem.JW w x *ᵥ (w' - w) := by
  cases N with
  | linear id wId bId i o hi ho =>
    show (linearSem bId n k).f w' x = (linearSem bId n k).f w x + (linearSem bId n k).JW w x *ᵥ (w' - w)
    rw [linearSem_weight, linearSem_weight, mulVec_sub, show (linearSem bId n k).JW w' x = (linearSem bId n k).JW w x from rfl]
    abel
  | conv id wId bId g =>
    show (convSem bId g.c1 g.h1 g.w1 g.c2 g.h2 g.w2 g.kh g.kw g.ph g.pw).f w' x = (convSem bId g.c1 g.h1 g.w1 g.c2 g.h2 g.w2 g.kh g.kw g.ph g.pw).f w x +
      (convSem bId g.c1 g.h1 g.w1 g.c2 g.h2 g.w2 g.kh g.kw g.ph g.pw).JW w x *ᵥ (w' - w)
    rw [convSem_weight, convSem_weight, mulVec_sub, show (convSem bId g.c1 g.h1 g.w1 g.c2 g.h2 g.w2 g.kh g.kw g.ph g.pw).JW w' x =
      (convSem bId g.c1 g.h1 g.w1 g.c2 g.h2 g.w2 g.kh g.kw g.ph g.pw).JW w x from rfl]
    abel
  | seq _ _ => exact (hN trivial).elim
  | skip _ _ _ => exact (hN trivial).elim
  | _ =>
    have e : w' = w := Subsingleton.elim _ _
    rw [e, sub_self, mulVec_zero, add_zero]

/-! ### second derivatives -/

theorem affine_fderiv {f : (Fin n → ℝ) → Fin k → ℝ} {x : Fin n → ℝ} {J : Matrix (Fin k) (Fin n) ℝ}
    (hf : ∀ᶠ z in nhds x, f z = f x + J *ᵥ (z - x)) : ∀ᶠ z in nhds x, HasFDerivAt f (linMap J) z := by
  filter_upwards [hf.eventually_nhds] with z hz
  refine HasFDerivAt.congr_of_eventuallyEq (f := fun z => f x + linMap J (z - x)) ?_ hz
  have := ((linMap J).hasFDerivAt (x := z - x)).comp z ((hasFDerivAt_id z).sub_const x)
  exact (this.const_add (f x)).congr_fderiv (by ext v; simp)

/-- the Hessian of a function of a locally affine map -/
theorem HasHess.comp_affine {L : (Fin k → ℝ) → ℝ} {f : (Fin n → ℝ) → Fin k → ℝ} {x : Fin n → ℝ} {J : Matrix (Fin k) (Fin n) ℝ}
    {H : Matrix (Fin k) (Fin k) ℝ} (hf : ∀ᶠ z in nhds x, f z = f x + J *ᵥ (z - x)) (hl : HasHess L H (f x)) :
    HasHessAt (fun z => L (f z)) (Jᵀ * H * J) x := by
  obtain ⟨g, hg, hH⟩ := hl
  have hd := affine_fderiv hf
  refine ⟨fun z => g (f z) ᵥ* J, hd.mono fun z hz => HasGrad.comp (hg _) hz, ?_⟩
  have h1 := HasFDerivAt.comp x hH hd.self_of_nhds
  have h2 := ((linMap Jᵀ).hasFDerivAt (x := g (f x))).comp x h1
  have e : (fun z => g (f z) ᵥ* J) = linMap Jᵀ ∘ g ∘ f := by
    funext z; simp [mulVec_transpose]
  rw [e]
  refine h2.congr_fderiv ?_
  ext v
  simp [mulVec_mulVec, Matrix.mul_assoc]

theorem HasHessAt.smul {L : (Fin n → ℝ) → ℝ} {H : Matrix (Fin n) (Fin n) ℝ} {x : Fin n → ℝ} (c : ℝ) (h : HasHessAt L H x) :
    HasHessAt (fun z => c * L z) (fun i j => c * H i j) x := by
  obtain ⟨g, hg, hH⟩ := h
  refine ⟨fun z i => c * g z i, hg.mono fun z hz => hz.smul c, ?_⟩
  refine (hH.const_smul c).congr_fderiv ?_
  refine ContinuousLinearMap.ext fun v => funext fun i => ?_
  show c * ∑ j, H i j * v j = ∑ j, c * H i j * v j
  simp only [Finset.mul_sum, mul_assoc]

theorem HasHessAt.sum {B : Nat} {L : Fin B → (Fin n → ℝ) → ℝ} {H : Fin B → Matrix (Fin n) (Fin n) ℝ} {x : Fin n → ℝ}
    (h : ∀ b, HasHessAt (L b) (H b) x) : HasHessAt (fun z => ∑ b, L b z) (fun i j => ∑ b, H b i j) x := by
  choose g hg hH using h
  refine ⟨fun z i => ∑ b, g b z i, (eventually_all.2 hg).mono fun z hz => HasGrad.sum hz, ?_⟩
  have h1 := HasFDerivAt.fun_sum (u := Finset.univ) fun b _ => hH b
  have e : (fun z => ∑ b, g b z) = fun z i => ∑ b, g b z i := by funext z i; simp
  rw [e] at h1
  refine h1.congr_fderiv ?_
  refine ContinuousLinearMap.ext fun v => funext fun i => ?_
  rw [_root_.sum_apply, Finset.sum_apply]
  show ∑ b, ∑ j, H b i j * v j = ∑ j, (∑ b, H b i j) * v j
  simp only [Finset.sum_mul]
  exact Finset.sum_comm

/-- the second derivative of a function along a line -/
theorem HasHess.line {L : (Fin k → ℝ) → ℝ} {f : ℝ → Fin k → ℝ} {u : Fin k → ℝ} {H : Matrix (Fin k) (Fin k) ℝ}
    (hf : ∀ᶠ t in nhds (0 : ℝ), f t = f 0 + t • u) (hl : HasHess L H (f 0)) : HasSecondDerivAt (fun t => L (f t)) (u ⬝ᵥ (H *ᵥ u)) 0 := by
  obtain ⟨g, hg, hH⟩ := hl
  have hd : ∀ᶠ t in nhds (0 : ℝ), HasDerivAt f u t := by
    filter_upwards [hf.eventually_nhds] with t ht
    refine HasDerivAt.congr_of_eventuallyEq (f := fun t => f 0 + t • u) ?_ ht
    have := ((hasDerivAt_id t).smul_const u).const_add (f 0)
    simpa using this
  refine ⟨fun t => g (f t) ⬝ᵥ u, hd.mono fun t ht => ?_, ?_⟩
  · have := HasFDerivAt.comp_hasDerivAt t (hg (f t)) ht
    rw [linForm_apply] at this
    exact this
  · have h1 := HasFDerivAt.comp_hasDerivAt (0 : ℝ) hH hd.self_of_nhds
    have h2 := HasFDerivAt.comp_hasDerivAt (0 : ℝ) ((linForm u).hasFDerivAt (x := g (f 0))) h1
    have e : (fun t => g (f t) ⬝ᵥ u) = linForm u ∘ g ∘ f := by
      funext t; simp [linForm_apply, dotProduct_comm]
    rw [e]
    simpa [linForm_apply] using h2

theorem HasSecondDerivAt.smul {f : ℝ → ℝ} {a t : ℝ} (c : ℝ) (h : HasSecondDerivAt f a t) : HasSecondDerivAt (fun u => c * f u) (c * a) t := by
  obtain ⟨f', h1, h2⟩ := h
  exact ⟨fun u => c * f' u, h1.mono fun u hu => hu.const_mul c, h2.const_mul c⟩

theorem HasSecondDerivAt.sum {B : Nat} {f : Fin B → ℝ → ℝ} {a : Fin B → ℝ} {t : ℝ} (h : ∀ b, HasSecondDerivAt (f b) (a b) t) :
    HasSecondDerivAt (fun u => ∑ b, f b u) (∑ b, a b) t := by
  choose f' h1 h2 using h
  exact ⟨fun u => ∑ b, f' b u, (eventually_all.2 h1).mono fun u hu => HasDerivAt.fun_sum fun b _ => hu b, HasDerivAt.fun_sum fun b _ => h2 b⟩

theorem HasSecondDerivAt.unique {f : ℝ → ℝ} {a b t : ℝ} (ha : HasSecondDerivAt f a t) (hb : HasSecondDerivAt f b t) : a = b := by
  obtain ⟨f', h1, h2⟩ := ha
  obtain ⟨g', h3, h4⟩ := hb
  have e : f' =ᶠ[nhds t] g' := by
    filter_upwards [h1, h3] with u hu hu'
    exact hu.unique hu'
  exact h2.unique (h4.congr_of_eventuallyEq e)

/-- along a direction within one layer, at a point where the network is differentiable -/
theorem Net.second_deriv {s s' : List Nat} {N : Net s n s' k p} (hN : N.PieceLin) {w : Fin p → ℝ} {x : Fin n → ℝ} (hs : N.sem.smooth w x)
    {v : Fin p → ℝ} (hv : N.InLayer v) {L : (Fin k → ℝ) → ℝ} {H : Matrix (Fin k) (Fin k) ℝ} (hl : HasHess L H (N.sem.f w x)) :
    HasSecondDerivAt (fun t => L (N.sem.f (w + t • v) x)) (v ⬝ᵥ (((N.sem.JW w x)ᵀ * H * N.sem.JW w x) *ᵥ v)) 0 := by
  have h := (N.aff hN _ _ hs).2 v hv
  have e : N.sem.f (w + (0 : ℝ) • v) x = N.sem.f w x := by rw [zero_smul, add_zero]
  have := HasHess.line (L := L) (f := fun t : ℝ => N.sem.f (w + t • v) x) (u := N.sem.JW w x *ᵥ v) (H := H) (by simpa only [e] using h) (by rw [e]; exact hl)
  have e2 : v ⬝ᵥ (((N.sem.JW w x)ᵀ * H * N.sem.JW w x) *ᵥ v) = (N.sem.JW w x *ᵥ v) ⬝ᵥ (H *ᵥ (N.sem.JW w x *ᵥ v)) := by
    rw [Matrix.mul_assoc, ← mulVec_mulVec, dotProduct_mulVec, vecMul_transpose, ← mulVec_mulVec]
  rw [e2]
  exact this

end NNJ

namespace NNJ
open Matrix Filter LogLik

section
variable {s s' : List Nat} {n k p : Nat} {N : Net s n s' k p} {st : Store ℝ}
variable {B : Nat} {X : Fin B → Fin n → ℝ} {x t : Tensor ℝ} {T : Fin B → Fin k → ℝ}
variable {LL : (Fin k → ℝ) → (Fin k → ℝ) → ℝ} {agg : AggArg} {shape : ShapeArg} {H : Fin B → Matrix (Fin k) (Fin k) ℝ}
variable {ggn : Wrt → Prog ℝ (PyVal ℝ)}

theorem inLayer_single (N : Net s n s' k p) (hsame : ∀ i, N.sem.same i i = true) (i : Fin p) : N.InLayer (Pi.single i 1) := by
  intro a b ha hb
  have ea : a = i := by by_contra h; exact ha (Pi.single_eq_of_ne h 1)
  have eb : b = i := by by_contra h; exact hb (Pi.single_eq_of_ne h 1)
  rw [ea, eb]; exact hsame i

/-- the value of the likelihood after `set_weight` -/
theorem weight_value {fwd : Prog ℝ (Option (Tensor ℝ))} (h : N.Ok st) (hh : st.hooks N.mod.id = []) (hn : N.paramIds.Nodup)
    (hF : ∀ {st : Store ℝ}, N.Ok st → st.hooks N.mod.id = [] → ReturnsScalar fwd st (aggFactor agg B * ∑ b, LL (N.out st (X b)) (T b)))
    (w' : Fin p → ℝ) : ReturnsScalar (do N.mod.setWeight (ofVec w'); fwd) st (aggFactor agg B * ∑ b, LL (N.sem.f w' (X b)) (T b)) := by
  obtain ⟨st', hr, hS, hok, hw'⟩ := h.setWeight hn (v := ofVec w') (by simp [Tensor.numel, ofVec])
  obtain ⟨v, hv, hv'⟩ := hF hok (by rw [hS.wiring.hooks]; exact hh)
  refine ⟨v, ?_, ?_⟩
  · rw [Returns, Prog.bind_ok hr]; exact hv
  · have : N.w st' = w' := by funext i; rw [hw']; simp [ofVec]
    simpa only [Net.out, this] using hv'

/-- `metric_shape="diag"`, weights -/
theorem hess_weight_diag {fwd : Prog ℝ (Option (Tensor ℝ))} (h : N.Ok st) (hh : st.hooks N.mod.id = []) (hn : N.paramIds.Nodup) (hp : 0 < p)
    (hF : ∀ {st : Store ℝ}, N.Ok st → st.hooks N.mod.id = [] → ReturnsScalar fwd st (aggFactor agg B * ∑ b, LL (N.out st (X b)) (T b)))
    (hg : GgnOf ggn N st X agg shape H) (hsh : shape = .diag) (hH : ∀ b, HasHess (fun y => LL y (T b)) (H b) (N.out st (X b)))
    (hN : N.PieceLin) (hs : ∀ b, N.sem.smooth (N.w st) (X b)) :
    ∃ wt w g G, Returns N.mod.getWeight st wt ∧ IsVec1 wt p w ∧ Returns (ggn .weight) st (.tensor g) ∧ IsVec1 g p G ∧
      (∀ w' : Fin p → ℝ, ∃ a, ReturnsScalar (do N.mod.setWeight (ofVec w'); fwd) st a) ∧
      ∀ i, HasSecondDerivAt (fun t => scalarOf (do N.mod.setWeight (ofVec (w + Pi.single i t)); fwd) st) (G i) 0 := by
  obtain ⟨wt, hwt, hw⟩ := h.getWeight hn hp
  obtain ⟨g, hr, hG⟩ := hg.weightDiag hsh hp
  have key := weight_value h hh hn hF
  refine ⟨wt, N.w st, g, _, by rw [Returns, hwt], hw, hr, hG, fun w' => ⟨_, key w'⟩, fun i => ?_⟩
  have e : (fun t => scalarOf (do N.mod.setWeight (ofVec (N.w st + Pi.single i t)); fwd) st) =
      fun t => aggFactor agg B * ∑ b, LL (N.sem.f (N.w st + t • Pi.single i 1) (X b)) (T b) := by
    funext t
    rw [(key _).scalarOf_eq, ← Pi.single_smul]
    simp
  rw [e]
  refine HasSecondDerivAt.smul _ (HasSecondDerivAt.sum fun b => ?_)
  have := N.second_deriv hN (hs b) (inLayer_single N (fun i => N.same_refl i) i) (hH b)
  rw [single_one_dotProduct, mulVec_single_one] at this
  exact this

/-- `metric_shape="full"`, weights of a single layer -/
theorem hess_weight_full {fwd : Prog ℝ (Option (Tensor ℝ))} (h : N.Ok st) (hh : st.hooks N.mod.id = []) (hn : N.paramIds.Nodup) (hp : 0 < p)
    (hF : ∀ {st : Store ℝ}, N.Ok st → st.hooks N.mod.id = [] → ReturnsScalar fwd st (aggFactor agg B * ∑ b, LL (N.out st (X b)) (T b)))
    (hg : GgnOf ggn N st X agg shape H) (hsh : shape = .full) (hH : ∀ b, HasHess (fun y => LL y (T b)) (H b) (N.out st (X b)))
    (hN : ¬ N.Container) :
    ∃ wt w g G, Returns N.mod.getWeight st wt ∧ IsVec1 wt p w ∧ Returns (ggn .weight) st (.tensor g) ∧ IsMat1 g p p G ∧
      (∀ w' : Fin p → ℝ, ∃ a, ReturnsScalar (do N.mod.setWeight (ofVec w'); fwd) st a) ∧
      HasHessAt (fun w' => scalarOf (do N.mod.setWeight (ofVec w'); fwd) st) G w := by
  obtain ⟨wt, hwt, hw⟩ := h.getWeight hn hp
  obtain ⟨g, hr, hG⟩ := hg.weightFull hsh hp hN
  have key := weight_value h hh hn hF
  refine ⟨wt, N.w st, g, _, by rw [Returns, hwt], hw, hr, hG, fun w' => ⟨_, key w'⟩, ?_⟩
  have e : (fun w' => scalarOf (do N.mod.setWeight (ofVec w'); fwd) st) = fun w' => aggFactor agg B * ∑ b, LL (N.sem.f w' (X b)) (T b) := by
    funext w'; exact (key w').scalarOf_eq
  rw [e]
  exact HasHessAt.smul _ (HasHessAt.sum fun b =>
    HasHess.comp_affine (f := fun w' => N.sem.f w' (X b)) (Eventually.of_forall fun w' => N.weight_affine hN _ _ _) (hH b))

/-- inputs -/
theorem hess_input {fwd : Tensor ℝ → Option (Tensor ℝ) → Prog ℝ (Option (Tensor ℝ))} {agg' : AggArg} (hagg' : agg' = .sum ∨ agg' = .average)
    (hF : ∀ {X : Fin 1 → Fin n → ℝ} {T : Fin 1 → Fin k → ℝ} {x t : Tensor ℝ}, IsBatch x 1 s n X → IsBatch t 1 s' k T →
      ReturnsScalar (fwd x (some t)) st (aggFactor agg' 1 * ∑ b, LL (N.out st (X b)) (T b)))
    (hg : GgnOf ggn N st X agg shape H) (hH : ∀ b, HasHess (fun y => LL y (T b)) (H b) (N.out st (X b)))
    (hN : N.PieceLin) (hs : ∀ b, N.sem.smooth (N.w st) (X b)) :
    ∃ G : Fin B → Matrix (Fin n) (Fin n) ℝ,
      (shape = .diag → ∃ g, Returns (ggn .input) st (.tensor g) ∧ IsVec1 g n fun i => aggFactor agg B * ∑ b, G b i i) ∧
      (shape = .full → ∃ g, Returns (ggn .input) st (.tensor g) ∧ IsMat1 g n n fun i j => aggFactor agg B * ∑ b, G b i j) ∧
      ∀ b, HasHessAt (fun z => scalarOf (fwd (ofSample s z) (some (ofSample s' (T b)))) st) (G b) (X b) := by
  refine ⟨_, hg.inputDiag, hg.inputFull, fun b => ?_⟩
  have e : (fun z => scalarOf (fwd (ofSample s z) (some (ofSample s' (T b)))) st) = fun z => LL (N.out st z) (T b) := by
    funext z
    rw [(hF (ofSample_isBatch z) (ofSample_isBatch (T b))).scalarOf_eq, aggFactor_one hagg']
    simp
  rw [e]
  exact HasHess.comp_affine (f := N.out st) (N.aff hN _ _ (hs b)).1 (hH b)

end
end NNJ
