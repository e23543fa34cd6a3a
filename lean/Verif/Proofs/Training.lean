import Verif.Spec.Training
import Verif.Proofs.Hessian
import Mathlib.LinearAlgebra.Matrix.Rank
import Mathlib.Analysis.Calculus.MeanValue
import Mathlib.Analysis.Calculus.LocalExtr.Basic

/-! Networks that are affine in their weights; concave log-likelihoods. -/

namespace NNJ
open Matrix Filter

variable {n l k p q : Nat}

/-- affine in the input -/
def Sem.LinI (S : Sem n k p) : Prop := ∀ w x z, S.f w z = S.f w x + S.J w x *ᵥ (z - x)

/-- affine in the weights -/
def Sem.LinW (S : Sem n k p) : Prop := ∀ w w' x, S.f w' x = S.f w x + S.JW w x *ᵥ (w' - w)

theorem Sem.LinI.comp {S1 : Sem n l p} {S2 : Sem l k q} (h1 : S1.LinI) (h2 : S2.LinI) : (S1.comp S2).LinI := fun w x z => by
  simp only [Sem.comp]
  rw [h2 _ (S1.f (wl w) x), h1 _ x z, add_sub_cancel_left, mulVec_mulVec]

theorem Sem.LinI.skip {S : Sem n k p} (h : S.LinI) : S.skip.LinI := fun w x z => by
  funext i
  refine Fin.addCases (fun i => ?_) (fun i => ?_) i
  · simp [Sem.skip, vcat_mulVec, Fin.append_left]
  · simp [Sem.skip, vcat_mulVec, Fin.append_right, h w x z]

theorem Sem.LinW.skip {S : Sem n k p} (h : S.LinW) : S.skip.LinW := fun w w' x => by
  funext i
  refine Fin.addCases (fun i => ?_) (fun i => ?_) i
  · simp [Sem.skip, vcat_mulVec, Fin.append_left]
  · simp [Sem.skip, vcat_mulVec, Fin.append_right, h w w' x]

theorem wl_sub (w v : Fin (p + q) → ℝ) : wl (w - v) = wl w - wl v := rfl
theorem wr_sub (w v : Fin (p + q) → ℝ) : wr (w - v) = wr w - wr v := rfl

theorem Sem.LinW.comp_right {S1 : Sem n l p} {S2 : Sem l k q} (hp : p = 0) (h2 : S2.LinW) : (S1.comp S2).LinW := fun w w' x => by
  subst hp
  have e : wl w' = wl w := Subsingleton.elim _ _
  simp only [Sem.comp, hcat_mulVec, wl_sub, wr_sub, e, sub_self, mulVec_zero, zero_add]
  exact h2 _ _ _

theorem Sem.LinW.comp_left {S1 : Sem n l p} {S2 : Sem l k q} (h1 : S1.LinW) (hq : q = 0) (h2 : S2.LinI) : (S1.comp S2).LinW := fun w w' x => by
  subst hq
  have e : wr w' = wr w := Subsingleton.elim _ _
  simp only [Sem.comp, hcat_mulVec, wl_sub, wr_sub, e, sub_self, mulVec_zero, add_zero]
  rw [h2 _ (S1.f (wl w) x), h1 (wl w) (wl w'), add_sub_cancel_left, mulVec_mulVec]

mutual
theorem Net.moves_p : {s s' : List Nat} → {n k p : Nat} → (N : Net s n s' k p) → N.Moves → p = 0
  | _, _, _, _, _, .linear _ _ _ _ _ _ _, h => h.elim
  | _, _, _, _, _, .act _ _ _ _ _ _, _ => rfl
  | _, _, _, _, _, .flatten _ _ _ _ _, _ => rfl
  | _, _, _, _, _, .reshape _ _ _ _ _ _ _ _ _, _ => rfl
  | _, _, _, _, _, .l2norm _ _ _ _ _ _ _, _ => rfl
  | _, _, _, _, _, .conv _ _ _ _, h => h.elim
  | _, _, _, _, _, .upsample _ _ _ _ _ _ _ _ _, _ => rfl
  | _, _, _, _, _, .maxpool _ _, _ => rfl
  | _, _, _, _, _, .seq _ c, h => Chain.moves_p c h
  | _, _, _, _, _, .skip _ _ ch, h => Chain.moves_p ch h
theorem Chain.moves_p : {s s' : List Nat} → {n k p l : Nat} → (c : Chain s n s' k p l) → c.Moves → p = 0
  | _, _, _, _, _, _, .nil _ _ _ _, _ => rfl
  | _, _, _, _, _, _, .snoc c m, h => by rw [Chain.moves_p c h.1, Net.moves_p m h.2]
end

mutual
theorem Net.moves_lin : {s s' : List Nat} → {n k p : Nat} → (N : Net s n s' k p) → N.Moves → N.sem.LinI
  | _, _, _, _, _, .linear _ _ _ _ _ _ _, h => h.elim
  | _, _, _, _, _, .act _ _ _ _ _ _, h => h.elim
  | _, _, _, _, _, .flatten _ _ _ _ _, _ => fun _ x z => by simp [Net.sem, reshapeSem, Sem.leaf0, Sem.leaf]
  | _, _, _, _, _, .reshape _ _ _ _ _ _ _ _ _, _ => fun _ x z => by simp [Net.sem, reshapeSem, Sem.leaf0, Sem.leaf]
  | _, _, _, _, _, .l2norm _ _ _ _ _ _ _, h => h.elim
  | _, _, _, _, _, .conv _ _ _ _, h => h.elim
  | _, _, _, _, _, .upsample _ _ _ _ _ _ _ _ _, _ => fun _ x z => by
    funext i
    simp [Net.sem, upSem, Sem.leaf0, Sem.leaf, mulVec, dotProduct]
  | _, _, _, _, _, .maxpool _ _, h => h.elim
  | _, _, _, _, _, .seq _ c, h => Chain.moves_lin c h
  | _, _, _, _, _, .skip _ _ ch, h => (Chain.moves_lin ch h).skip
theorem Chain.moves_lin : {s s' : List Nat} → {n k p l : Nat} → (c : Chain s n s' k p l) → c.Moves → c.sem.LinI
  | _, _, _, _, _, _, .nil _ _ _ _, _ => fun _ x z => by simp [Chain.sem, Sem.id]
  | _, _, _, _, _, _, .snoc c m, h => (Chain.moves_lin c h.1).comp (Net.moves_lin m h.2)
end

mutual
theorem Net.lastLayer_lin : {s s' : List Nat} → {n k p : Nat} → (N : Net s n s' k p) → N.LastLayer → N.sem.LinW
  | _, _, _, _, _, .linear a b c d e f g, _ => fun _ _ _ => Net.weight_affine (.linear a b c d e f g) (fun h => h) _ _ _
  | _, _, _, _, _, .act a b c d e f, _ => fun _ _ _ => Net.weight_affine (.act a b c d e f) (fun h => h) _ _ _
  | _, _, _, _, _, .flatten a b c d e, _ => fun _ _ _ => Net.weight_affine (.flatten a b c d e) (fun h => h) _ _ _
  | _, _, _, _, _, .reshape a b c d e f g h i, _ => fun _ _ _ => Net.weight_affine (.reshape a b c d e f g h i) (fun h => h) _ _ _
  | _, _, _, _, _, .l2norm a b c d e f g, _ => fun _ _ _ => Net.weight_affine (.l2norm a b c d e f g) (fun h => h) _ _ _
  | _, _, _, _, _, .conv a b c d, _ => fun _ _ _ => Net.weight_affine (.conv a b c d) (fun h => h) _ _ _
  | _, _, _, _, _, .upsample a b c d e f g h i, _ => fun _ _ _ => Net.weight_affine (.upsample a b c d e f g h i) (fun h => h) _ _ _
  | _, _, _, _, _, .maxpool a b, _ => fun _ _ _ => Net.weight_affine (.maxpool a b) (fun h => h) _ _ _
  | _, _, _, _, _, .seq _ c, h => Chain.lastLayer_lin c h
  | _, _, _, _, _, .skip _ _ ch, h => (Chain.lastLayer_lin ch h).skip
theorem Chain.lastLayer_lin : {s s' : List Nat} → {n k p l : Nat} → (c : Chain s n s' k p l) → c.LastLayer → c.sem.LinW
  | _, _, _, _, _, _, .nil _ _ _ _, _ => fun _ _ _ => by simp [Chain.sem, Sem.id]
  | _, _, _, _, _, _, .snoc c m, h => by
    rcases h with ⟨hp, hm⟩ | ⟨hc, hm⟩
    · exact Sem.LinW.comp_right hp (Net.lastLayer_lin m hm)
    · exact Sem.LinW.comp_left (Chain.lastLayer_lin c hc) (Net.moves_p m hm) (Net.moves_lin m hm)
end

/-! ### functions of several numbers -/

/-- a function with a nonpositive Hessian lies below its tangents -/
theorem tangent_above {L : (Fin k → ℝ) → ℝ} {H : (Fin k → ℝ) → Matrix (Fin k) (Fin k) ℝ} (hH : ∀ z, HasHess L (H z) z)
    (hneg : ∀ z v, v ⬝ᵥ (H z *ᵥ v) ≤ 0) {y u : Fin k → ℝ} (hu : HasGrad L u y) (z : Fin k → ℝ) : L z ≤ L y + u ⬝ᵥ (z - y) := by
  obtain ⟨g, hg, -⟩ := hH y
  have hg' : ∀ z, HasFDerivAt g (linMap (H z)) z := fun z => by
    obtain ⟨g2, h1, h2⟩ := hH z
    have : g2 = g := funext fun a => (h1 a).unique (hg a)
    rwa [this] at h2
  have hu' : u = g y := hu.unique (hg y)
  set d := z - y with hd
  have hl : ∀ t : ℝ, HasDerivAt (fun t : ℝ => y + t • d) d t := fun t => by
    simpa using ((hasDerivAt_id t).smul_const d).const_add y
  have h1 : ∀ t : ℝ, HasDerivAt (fun t : ℝ => L (y + t • d)) (g (y + t • d) ⬝ᵥ d) t := fun t => by
    have := HasFDerivAt.comp_hasDerivAt (l := L) (f := fun t : ℝ => y + t • d) (l' := linForm (g (y + t • d))) t (hg (y + t • d)) (hl t)
    rwa [linForm_apply] at this
  have h2 : ∀ t : ℝ, HasDerivAt (fun t : ℝ => g (y + t • d) ⬝ᵥ d) (d ⬝ᵥ (H (y + t • d) *ᵥ d)) t := fun t => by
    have h3 := HasFDerivAt.comp_hasDerivAt t (hg' (y + t • d)) (hl t)
    have h4 := HasFDerivAt.comp_hasDerivAt t ((linForm d).hasFDerivAt (x := g (y + t • d))) h3
    have e : (fun t : ℝ => g (y + t • d) ⬝ᵥ d) = linForm d ∘ g ∘ fun t : ℝ => y + t • d := by
      funext t; simp [linForm_apply, dotProduct_comm]
    rw [e]
    simpa [linForm_apply] using h4
  have hanti : Antitone fun t : ℝ => g (y + t • d) ⬝ᵥ d := antitone_of_hasDerivAt_nonpos h2 fun t => hneg _ _
  obtain ⟨t, ht, he⟩ := exists_hasDerivAt_eq_slope (fun t : ℝ => L (y + t • d)) (fun t => g (y + t • d) ⬝ᵥ d) (zero_lt_one (α := ℝ))
    (fun t _ => (h1 t).continuousAt.continuousWithinAt) fun t _ => h1 t
  have h3 : g (y + t • d) ⬝ᵥ d ≤ g (y + (0 : ℝ) • d) ⬝ᵥ d := hanti ht.1.le
  simp only [zero_smul, add_zero, one_smul, sub_zero, div_one] at he h3
  rw [he, hd, add_sub_cancel] at h3
  rw [hu', hd]
  linarith

/-- the gradient of an objective that is concave, as a function of affine maps of the weights, is 0 exactly at its maxima -/
theorem concave_max {B : Nat} {L : Fin B → (Fin k → ℝ) → ℝ} {U : Fin B → (Fin k → ℝ) → Fin k → ℝ} (hU : ∀ b y, HasGrad (L b) (U b y) y)
    (htan : ∀ b y z, L b z ≤ L b y + U b y ⬝ᵥ (z - y)) {c : ℝ} (hc : 0 ≤ c) {f : Fin B → (Fin p → ℝ) → Fin k → ℝ}
    {J : Fin B → Matrix (Fin k) (Fin p) ℝ} (w : Fin p → ℝ) (hf : ∀ b w', f b w' = f b w + J b *ᵥ (w' - w)) (w0 : Fin p → ℝ) :
    ((fun i => c * ∑ b, (U b (f b w0) ᵥ* J b) i) = 0) ↔ ∀ w', c * ∑ b, L b (f b w') ≤ c * ∑ b, L b (f b w0) := by
  have hf0 : ∀ b w', f b w' = f b w0 + J b *ᵥ (w' - w0) := fun b w' => by
    rw [hf b w', hf b w0, add_assoc, ← mulVec_add]
    congr 2; abel
  constructor
  · intro h w'
    have h1 : c * ∑ b, L b (f b w') ≤ c * ∑ b, (L b (f b w0) + U b (f b w0) ⬝ᵥ (J b *ᵥ (w' - w0))) := by
      refine mul_le_mul_of_nonneg_left (Finset.sum_le_sum fun b _ => ?_) hc
      have := htan b (f b w0) (f b w')
      rwa [hf0 b w', add_sub_cancel_left, ← hf0 b w'] at this
    refine h1.trans (le_of_eq ?_)
    rw [Finset.sum_add_distrib, mul_add]
    have h2 : c * ∑ b, U b (f b w0) ⬝ᵥ (J b *ᵥ (w' - w0)) = (fun i => c * ∑ b, (U b (f b w0) ᵥ* J b) i) ⬝ᵥ (w' - w0) := by
      simp only [dotProduct_mulVec]
      simp only [dotProduct, Finset.mul_sum, Finset.sum_mul]
      rw [Finset.sum_comm]
      simp only [mul_assoc]
    rw [h2, h, zero_dotProduct, add_zero]
  · intro h
    have hg : HasGrad (fun w' => c * ∑ b, L b (f b w')) (fun i => c * ∑ b, (U b (f b w0) ᵥ* J b) i) w0 :=
      HasGrad.smul _ (HasGrad.sum fun b => HasGrad.comp (hU b _) (affine_fderiv (Eventually.of_forall (hf0 b))).self_of_nhds)
    have := IsLocalMax.hasFDerivAt_eq_zero (Eventually.of_forall h) hg
    funext i
    have h2 := DFunLike.congr_fun this (Pi.single i 1)
    simpa [linForm_apply] using h2

/-- moving along the gradient increases a function -/
theorem ascent {F : (Fin p → ℝ) → ℝ} {g w : Fin p → ℝ} (hg : HasGrad F g w) (h0 : g ≠ 0) :
    ∃ ε : ℝ, 0 < ε ∧ ∀ η, 0 < η → η < ε → F w < F (w + η • g) := by
  have hl : HasDerivAt (fun t : ℝ => w + t • g) g 0 := by
    simpa using ((hasDerivAt_id (0 : ℝ)).smul_const g).const_add w
  have h1 : HasDerivAt (fun t : ℝ => F (w + t • g)) (g ⬝ᵥ g) 0 := by
    have := HasFDerivAt.comp_hasDerivAt (0 : ℝ) (l := F) (f := fun t : ℝ => w + t • g) (l' := linForm g) (by rw [zero_smul, add_zero]; exact hg) hl
    rwa [linForm_apply] at this
  have hpos : 0 < g ⬝ᵥ g := by
    rcases lt_or_eq_of_le (Finset.sum_nonneg fun i _ => mul_self_nonneg (g i) : 0 ≤ g ⬝ᵥ g) with h | h
    · exact h
    · exact absurd (dotProduct_self_eq_zero.1 h.symm) h0
  have h2 := h1.tendsto_slope.mono_left (nhdsWithin_mono 0 (fun t (ht : t ∈ Set.Ioi (0 : ℝ)) => ne_of_gt ht))
  have h3 := h2.eventually (lt_mem_nhds hpos)
  obtain ⟨ε, hε, h4⟩ := mem_nhdsGT_iff_exists_Ioo_subset.1 h3
  refine ⟨ε, hε, fun η h5 h6 => ?_⟩
  have h7 : 0 < slope (fun t : ℝ => F (w + t • g)) 0 η := h4 ⟨h5, h6⟩
  rw [slope_def_field, zero_smul, add_zero, sub_zero] at h7
  have := (div_pos_iff_of_pos_right h5).1 h7
  linarith

/-- the normal equations have a solution -/
theorem normal_equations {B : Nat} (J : Fin B → Matrix (Fin k) (Fin p) ℝ) (r : Fin B → Fin k → ℝ) :
    ∃ d, ∑ b, (J b)ᵀ *ᵥ (J b *ᵥ d) = ∑ b, r b ᵥ* J b := by
  let A : Matrix (Fin B × Fin k) (Fin p) ℝ := fun bi j => J bi.1 bi.2 j
  have hle : LinearMap.range (Aᵀ * A).mulVecLin ≤ LinearMap.range Aᵀ.mulVecLin := by
    rintro _ ⟨v, rfl⟩
    exact ⟨A *ᵥ v, by simp⟩
  have heq : LinearMap.range (Aᵀ * A).mulVecLin = LinearMap.range Aᵀ.mulVecLin := by
    refine Submodule.eq_of_le_of_finrank_eq hle ?_
    show (Aᵀ * A).rank = Aᵀ.rank
    rw [rank_transpose_mul_self, rank_transpose]
  have hmem : Aᵀ *ᵥ (fun bi => r bi.1 bi.2) ∈ LinearMap.range (Aᵀ * A).mulVecLin := by
    rw [heq]; exact ⟨_, rfl⟩
  obtain ⟨d, hd⟩ := hmem
  refine ⟨d, ?_⟩
  have e1 : ∀ v : Fin B × Fin k → ℝ, Aᵀ *ᵥ v = ∑ b, (fun i => v (b, i)) ᵥ* J b := fun v => by
    funext j
    simp only [mulVec, dotProduct, Finset.sum_apply, vecMul, Fintype.sum_prod_type, A]
    exact Finset.sum_congr rfl fun b _ => Finset.sum_congr rfl fun i _ => mul_comm _ _
  rw [e1] at hd
  rw [← hd, mulVecLin_apply, ← mulVec_mulVec, e1]
  refine Finset.sum_congr rfl fun b _ => ?_
  rw [mulVec_transpose]
  rfl

end NNJ

namespace NNJ
open Matrix Filter LogLik

section
variable {s s' : List Nat} {n k p : Nat} {N : Net s n s' k p} {st : Store ℝ}
variable {B : Nat} {X : Fin B → Fin n → ℝ} {T : Fin B → Fin k → ℝ}
variable {LL : (Fin k → ℝ) → (Fin k → ℝ) → ℝ} {U : (Fin k → ℝ) → (Fin k → ℝ) → Fin k → ℝ} {agg : AggArg}
variable {grad : Wrt → Prog ℝ (PyVal ℝ)} {fwd : Prog ℝ (Option (Tensor ℝ))}

theorem ReturnsScalar.unique {c : Prog ℝ (Option (Tensor ℝ))} {a b : ℝ} (ha : ReturnsScalar c st a) (hb : ReturnsScalar c st b) : a = b := by
  rw [← ha.scalarOf_eq, hb.scalarOf_eq]

theorem max_iff (key : ∀ w' : Fin p → ℝ, ReturnsScalar (N.At fwd w') st (aggFactor agg B * ∑ b, LL (N.sem.f w' (X b)) (T b))) (a : ℝ) :
    N.Max fwd st a ↔ ∀ w', aggFactor agg B * ∑ b, LL (N.sem.f w' (X b)) (T b) ≤ a := by
  refine ⟨fun h w' => ?_, fun h w' => ⟨_, key w', h w'⟩⟩
  obtain ⟨a', h1, h2⟩ := h w'
  rwa [(key w').unique h1]

theorem ascends_of (h : N.Ok st) (hh : st.hooks N.mod.id = []) (hn : N.paramIds.Nodup) (hp : 0 < p)
    (hF : ∀ {st : Store ℝ}, N.Ok st → st.hooks N.mod.id = [] → ReturnsScalar fwd st (aggFactor agg B * ∑ b, LL (N.out st (X b)) (T b)))
    (hG : GradOf grad N st X agg fun b => U (N.out st (X b)) (T b)) (hU : ∀ b y, HasGrad (fun y => LL y (T b)) (U y (T b)) y)
    (hs : ∀ b, N.sem.smooth (N.w st) (X b)) : N.Ascends (grad .weight) fwd st := by
  obtain ⟨wt, hwt, hw⟩ := h.getWeight hn hp
  obtain ⟨g, hg, hg'⟩ := hG.2.1 hp
  have key := weight_value h hh hn hF
  refine ⟨wt, N.w st, g, _, _, by rw [Returns, hwt], hw, hg, hg', hF h hh, fun h0 => ?_⟩
  have hd : HasGrad (fun w' => aggFactor agg B * ∑ b, LL (N.sem.f w' (X b)) (T b)) _ (N.w st) :=
    HasGrad.smul _ (HasGrad.sum fun b => HasGrad.comp (f := fun w => N.sem.f w (X b)) (hU b _) (N.diff _ _ (hs b)).weight)
  obtain ⟨ε, hε, hi⟩ := ascent hd h0
  exact ⟨ε, hε, fun η h1 h2 => ⟨_, key _, hi η h1 h2⟩⟩

theorem stationary_of (h : N.Ok st) (hh : st.hooks N.mod.id = []) (hn : N.paramIds.Nodup) (hp : 0 < p) (hN : N.LastLayer)
    (hF : ∀ {st : Store ℝ}, N.Ok st → st.hooks N.mod.id = [] → ReturnsScalar fwd st (aggFactor agg B * ∑ b, LL (N.out st (X b)) (T b)))
    (hG : GradOf grad N st X agg fun b => U (N.out st (X b)) (T b)) (hU : ∀ b y, HasGrad (fun y => LL y (T b)) (U y (T b)) y)
    {H : Fin B → (Fin k → ℝ) → Matrix (Fin k) (Fin k) ℝ} (hH : ∀ b y, HasHess (fun y => LL y (T b)) (H b y) y)
    (hneg : ∀ b y v, v ⬝ᵥ (H b y *ᵥ v) ≤ 0) : N.Stationary (grad .weight) fwd st := by
  obtain ⟨g, hg, hg'⟩ := hG.2.1 hp
  have key := weight_value h hh hn hF
  refine ⟨g, _, _, hg, hg', hF h hh, ?_⟩
  rw [max_iff key]
  exact concave_max (L := fun b y => LL y (T b)) (U := fun b y => U y (T b)) hU (fun b y z => tangent_above (hH b) (hneg b) (hU b y) z)
    (aggFactor_nonneg agg B) (f := fun b w => N.sem.f w (X b)) (N.w st) (fun b w' => N.lastLayer_lin hN _ _ _) (N.w st)

theorem newton_of {ggn : Wrt → Prog ℝ (PyVal ℝ)} {shape : ShapeArg} (h : N.Ok st) (hh : st.hooks N.mod.id = []) (hn : N.paramIds.Nodup)
    (hp : 0 < p) (hN : ¬ N.Container)
    (hF : ∀ {st : Store ℝ}, N.Ok st → st.hooks N.mod.id = [] → ReturnsScalar fwd st (aggFactor agg B * ∑ b, gaussLL (N.out st (X b)) (T b)))
    (hG : GradOf grad N st X agg fun b i => T b i - N.out st (X b) i)
    (hg : GgnOf ggn N st X agg shape fun _ => diagonal fun _ => -1) (hsh : shape = .full) :
    N.Newton (grad .weight) (ggn .weight) fwd st := by
  obtain ⟨wt, hwt, hw⟩ := h.getWeight hn hp
  obtain ⟨g, hr, hg'⟩ := hG.2.1 hp
  obtain ⟨m, hm, hM⟩ := hg.weightFull hsh hp hN
  have key := weight_value h hh hn hF
  have hlin : ∀ w' x, N.sem.f w' x = N.sem.f (N.w st) x + N.JW st x *ᵥ (w' - N.w st) := fun w' x => N.weight_affine hN _ _ _
  -- the gradient at `w + d`
  have eM : ∀ d : Fin p → ℝ, (fun i j => aggFactor agg B * ∑ b, ((N.JW st (X b))ᵀ * diagonal (fun _ => (-1 : ℝ)) * N.JW st (X b) : Matrix (Fin p) (Fin p) ℝ) i j : Matrix (Fin p) (Fin p) ℝ) *ᵥ d =
      -(aggFactor agg B • ∑ b, (N.JW st (X b))ᵀ *ᵥ (N.JW st (X b) *ᵥ d)) := fun d => by
    have e0 : (fun i j => aggFactor agg B * ∑ b, ((N.JW st (X b))ᵀ * diagonal (fun _ => (-1 : ℝ)) * N.JW st (X b) : Matrix (Fin p) (Fin p) ℝ) i j : Matrix (Fin p) (Fin p) ℝ) =
        -(aggFactor agg B • ∑ b, (N.JW st (X b))ᵀ * N.JW st (X b)) := by
      have e1 : (diagonal (fun _ => (-1 : ℝ)) : Matrix (Fin k) (Fin k) ℝ) = -1 := by
        rw [← diagonal_one, ← diagonal_neg]
      ext i j
      simp [e1, Matrix.sum_apply, Finset.mul_sum]
    rw [e0, neg_mulVec, smul_mulVec, Matrix.sum_mulVec]
    simp only [mulVec_mulVec]
  have eG : (fun i => aggFactor agg B * ∑ b, ((fun i => T b i - N.out st (X b) i) ᵥ* N.JW st (X b)) i) =
      aggFactor agg B • ∑ b, (fun i => T b i - N.out st (X b) i) ᵥ* N.JW st (X b) := by
    funext i; simp
  refine ⟨wt, N.w st, g, _, m, _, by rw [Returns, hwt], hw, hr, hg', hm, hM, ?_, fun d => ?_⟩
  · obtain ⟨d, hd⟩ := normal_equations (fun b => N.JW st (X b)) fun b i => T b i - N.out st (X b) i
    exact ⟨d, by rw [eM, eG, hd]⟩
  · have h1 := concave_max (L := fun b y => gaussLL y (T b)) (U := fun b y i => T b i - y i) (fun b y => gaussLL_grad y (T b))
      (fun b y z => tangent_above (fun y => gaussLL_hess y (T b)) (fun _ => diagonal_nonpos fun _ => by norm_num) (gaussLL_grad y (T b)) z)
      (aggFactor_nonneg agg B) (f := fun b w => N.sem.f w (X b)) (N.w st) (fun b w' => hlin w' (X b)) (N.w st + d)
    have h2 : (fun i => aggFactor agg B * ∑ b, ((fun i => T b i - N.sem.f (N.w st + d) (X b) i) ᵥ* N.JW st (X b)) i) =
        aggFactor agg B • ∑ b, (fun i => T b i - N.out st (X b) i) ᵥ* N.JW st (X b) -
          aggFactor agg B • ∑ b, (N.JW st (X b))ᵀ *ᵥ (N.JW st (X b) *ᵥ d) := by
      rw [← smul_sub, ← Finset.sum_sub_distrib]
      funext i
      simp only [Pi.smul_apply, smul_eq_mul, Finset.sum_apply]
      congr 1
      refine Finset.sum_congr rfl fun b _ => ?_
      rw [hlin, mulVec_transpose, ← sub_vecMul, add_sub_cancel_left]
      congr 2
      funext i
      simp only [Pi.sub_apply, Pi.add_apply, Net.out]
      ring
    rw [h2, sub_eq_zero] at h1
    rw [eM, eG, neg_inj]
    constructor
    · intro h3
      refine ⟨_, key _, (max_iff key _).2 (h1.1 h3.symm)⟩
    · rintro ⟨a, ha, hmax⟩
      rw [(key _).unique ha] at h1
      exact (h1.2 ((max_iff key _).1 hmax)).symm

end
end NNJ
