import Verif.Proofs.Fisher
import Verif.Props.Likelihood

/-!
# C73: the Gauss-Newton matrices are Fisher information matrices

Let the targets of the samples be random, with the distribution that the likelihood assigns to them given the model outputs: the
probability (density) of a batch of targets is `exp(forward(x, model, target))`.  Then `gradient` has expectation zero, and the covariance
matrix of `gradient` is minus what `ggn` returns.  (With `aggregate_batch="average"` the exponent is `B` times the value of `forward`, and the
covariance is minus `ggn` divided by `B`.)  No differentiability is needed.
-/

namespace NNJ
namespace Props
open Matrix LogLik MeasureTheory

variable {s s' : List Nat} {n k p : Nat} {N : Net s n s' k p} {st : Store ℝ}
variable {B : Nat} {X : Fin B → Fin n → ℝ} {x : Tensor ℝ} {cfg : Cfg}

/-- C73, `LogBinaryBernoulli`: over all binary targets the likelihoods sum to 1, the gradients have mean zero and covariance minus the
Gauss-Newton matrix. -/
theorem C73_binary (h : N.Ok st) (hh : st.hooks N.mod.id = []) (hB : 0 < B) (hx : IsBatch x B s n X)
    (hagg : cfg.agg = .sum ∨ cfg.agg = .average) (hbp : cfg.backprop = .exact) (hsh : cfg.shape = .diag ∨ cfg.shape = .full)
    {target : (Fin B × Fin k → Bool) → Tensor ℝ} (ht : ∀ T, IsBatch (target T) B s' k fun b i => bitVal (T (b, i)))
    {ρ : (Fin B × Fin k → Bool) → ℝ} (hρ : ∀ T, ρ T = likelihood (binaryForward cfg N.mod x (some (target T))) st cfg.agg B) :
    (∀ T, ∃ a, ReturnsScalar (binaryForward cfg N.mod x (some (target T))) st a) ∧ SumEx ρ (fun _ => 1) 1 ∧
    Fisher (SumEx ρ) (fun T => binaryGradient cfg N.mod x (some (target T)) .input) (binaryGgn cfg N.mod x .input) st n cfg.shape (aggFactor cfg.agg B) ∧
    (0 < p → cfg.shape = .diag ∨ ¬ N.Container →
      Fisher (SumEx ρ) (fun T => binaryGradient cfg N.mod x (some (target T)) .weight) (binaryGgn cfg N.mod x .weight) st p cfg.shape (aggFactor cfg.agg B)) := by
  have hF := fun T => binaryForward_scalar h hh hB hx (ht T) hagg
  have eρ : ρ = fun T => ∏ l : Fin B × Fin k, bit (N.out st (X l.1) l.2) (T l) := by
    funext T
    rw [hρ, likelihood_eq hB (hF T), Real.exp_sum, Fintype.prod_prod_type]
    refine Finset.prod_congr rfl fun b _ => ?_
    rw [binLL, Real.exp_sum]
    exact Finset.prod_congr rfl fun i _ => exp_bin1 _ _
  subst eρ
  have h1 : ∀ l : Fin B × Fin k, IntEx Measure.count (bit (N.out st (X l.1) l.2)) (fun _ => 1) 1 := fun l => bit_one _
  have hm : ∀ (b : Fin B) (i : Fin k), IntEx Measure.count (fun T : Fin B × Fin k → Bool => ∏ l, bit (N.out st (X l.1) l.2) (T l))
      (fun T => bitVal (T (b, i)) - sigma (N.out st (X b) i)) 0 := fun b i => by
    rw [← pi_count]
    exact prod_mean h1 (l := (b, i)) (bit_mean _)
  have hc : ∀ (b : Fin B) (i : Fin k) (b' : Fin B) (i' : Fin k), IntEx Measure.count (fun T : Fin B × Fin k → Bool => ∏ l, bit (N.out st (X l.1) l.2) (T l))
      (fun T => (bitVal (T (b, i)) - sigma (N.out st (X b) i)) * (bitVal (T (b', i')) - sigma (N.out st (X b') i')))
      (if b = b' then -(diagonal (fun i => sigma (N.out st (X b) i) * sigma (N.out st (X b) i) - sigma (N.out st (X b) i)) i i') else 0) := fun b i b' i' => by
    rw [← pi_count]
    refine (prod_moment h1 (l := (b, i)) (m := (b', i')) (u := fun t => bitVal t - sigma (N.out st (X b) i)) (v := fun t => bitVal t - sigma (N.out st (X b') i'))
      (bit_mean _) (bit_mean _) (a := -(sigma (N.out st (X b) i) * sigma (N.out st (X b) i) - sigma (N.out st (X b) i))) ?_).congr (fun _ => rfl) ?_
    · intro e
      obtain ⟨rfl, rfl⟩ := Prod.mk.inj e
      exact bit_var _
    · by_cases e1 : b = b'
      · by_cases e2 : i = i'
        · rw [if_pos e1, if_pos (by rw [e1, e2]), e2, diagonal_apply_eq]
        · rw [if_pos e1, if_neg (fun e => e2 (Prod.mk.inj e).2), diagonal_apply_ne _ e2, neg_zero]
      · rw [if_neg e1, if_neg (fun e => e1 (Prod.mk.inj e).1)]
  refine ⟨fun T => ⟨_, hF T⟩, ?_, ?_, fun hp hN => ?_⟩
  · refine IntEx.sumEx ?_
    rw [← pi_count]
    exact prod_one h1
  · exact (fisher_input hsh (fun T => binaryGradient_run h hh hB hx (ht T) hagg) (binaryGgn_run h hh hB hx hagg hbp) hm hc).mono fun _ _ => IntEx.sumEx
  · refine (fisher_weight hp ?_ (fun T => binaryGradient_run h hh hB hx (ht T) hagg) (binaryGgn_run h hh hB hx hagg hbp) hm hc).mono fun _ _ => IntEx.sumEx
    rcases hsh with e | e
    · exact .inl e
    · exact .inr ⟨e, hN.resolve_left (by rw [e]; simp)⟩

/-- C73, `LogBernoulli`: the same over all classes of the samples, given as one-hot targets. -/
theorem C73_bernoulli {c : Nat} {N : Net s n [c] c p} (h : N.Ok st) (hh : st.hooks N.mod.id = []) (hB : 0 < B) (hx : IsBatch x B s n X)
    (hagg : cfg.agg = .sum ∨ cfg.agg = .average) (hbp : cfg.backprop = .exact) (hsh : cfg.shape = .diag ∨ cfg.shape = .full)
    {target : (Fin B → Fin c) → Tensor ℝ} (ht : ∀ T, IsBatch (target T) B [c] c fun b => oneHot (T b))
    {ρ : (Fin B → Fin c) → ℝ} (hρ : ∀ T, ρ T = likelihood (bernoulliForward cfg N.mod x (some (target T))) st cfg.agg B) :
    (∀ T, ∃ a, ReturnsScalar (bernoulliForward cfg N.mod x (some (target T))) st a) ∧ SumEx ρ (fun _ => 1) 1 ∧
    Fisher (SumEx ρ) (fun T => bernoulliGradient cfg N.mod x (some (target T)) .input) (bernoulliGgn cfg N.mod x .input) st n cfg.shape (aggFactor cfg.agg B) ∧
    (0 < p → cfg.shape = .diag ∨ ¬ N.Container →
      Fisher (SumEx ρ) (fun T => bernoulliGradient cfg N.mod x (some (target T)) .weight) (bernoulliGgn cfg N.mod x .weight) st p cfg.shape
        (aggFactor cfg.agg B)) := by
  have hc0 : 0 < c := h.g.kpos
  have hF := fun T => bernoulliForward_scalar h hh hB hx (ht T) rfl hagg
  have eρ : ρ = fun T => ∏ b, softmax c (N.out st (X b)) (T b) := by
    funext T
    rw [hρ, likelihood_eq hB (hF T), Real.exp_sum]
    exact Finset.prod_congr rfl fun b _ => exp_class1 _ _
  subst eρ
  have h1 : ∀ b : Fin B, IntEx Measure.count (softmax c (N.out st (X b))) (fun _ => 1) 1 := fun b => cls_one hc0 _
  have hm : ∀ (b : Fin B) (i : Fin c), IntEx Measure.count (fun T : Fin B → Fin c => ∏ b, softmax c (N.out st (X b)) (T b))
      (fun T => oneHot (T b) i - softmax c (N.out st (X b)) i) 0 := fun b i => by
    rw [← pi_count]
    exact prod_mean h1 (l := b) (u := fun t => oneHot t i - softmax c (N.out st (X b)) i) (cls_mean hc0 _ i)
  have hc : ∀ (b : Fin B) (i : Fin c) (b' : Fin B) (i' : Fin c), IntEx Measure.count (fun T : Fin B → Fin c => ∏ b, softmax c (N.out st (X b)) (T b))
      (fun T => (oneHot (T b) i - softmax c (N.out st (X b)) i) * (oneHot (T b') i' - softmax c (N.out st (X b')) i'))
      (if b = b' then -(classH c (N.out st (X b)) i i') else 0) := fun b i b' i' => by
    rw [← pi_count]
    refine prod_moment h1 (l := b) (m := b') (u := fun t => oneHot t i - softmax c (N.out st (X b)) i) (v := fun t => oneHot t i' - softmax c (N.out st (X b')) i')
      (cls_mean hc0 _ i) (cls_mean hc0 _ i') (a := -(classH c (N.out st (X b)) i i')) ?_
    rintro rfl
    exact cls_cov hc0 _ i i'
  refine ⟨fun T => ⟨_, hF T⟩, ?_, ?_, fun hp hN => ?_⟩
  · refine IntEx.sumEx ?_
    rw [← pi_count]
    exact prod_one h1
  · exact (fisher_input hsh (fun T => bernoulliGradient_run h hh hB hx (ht T) rfl hagg) (bernoulliGgn_run h hh hB hx hagg hbp) hm hc).mono fun _ _ => IntEx.sumEx
  · refine (fisher_weight hp ?_ (fun T => bernoulliGradient_run h hh hB hx (ht T) rfl hagg) (bernoulliGgn_run h hh hB hx hagg hbp) hm hc).mono fun _ _ => IntEx.sumEx
    rcases hsh with e | e
    · exact .inl e
    · exact .inr ⟨e, hN.resolve_left (by rw [e]; simp)⟩

/-- C73, `LogGaussian`: the same for real targets.  `forward` leaves out the constant of the normal density, so `exp(forward)` integrates
to `(2π)^(B k / 2)`; the expectations are with the normalised density. -/
theorem C73_gaussian (h : N.Ok st) (hh : st.hooks N.mod.id = []) (hB : 0 < B) (hx : IsBatch x B s n X)
    (hagg : cfg.agg = .sum ∨ cfg.agg = .average) (hbp : cfg.backprop = .exact) (hsh : cfg.shape = .diag ∨ cfg.shape = .full)
    {target : (Fin B × Fin k → ℝ) → Tensor ℝ} (ht : ∀ T, IsBatch (target T) B s' k fun b i => T (b, i))
    {ρ : (Fin B × Fin k → ℝ) → ℝ}
    (hρ : ∀ T, ρ T = (Real.sqrt (2 * Real.pi) ^ (B * k))⁻¹ * likelihood (gaussianForward cfg N.mod x (some (target T))) st cfg.agg B) :
    (∀ T, ∃ a, ReturnsScalar (gaussianForward cfg N.mod x (some (target T))) st a) ∧ IntEx volume ρ (fun _ => 1) 1 ∧
    Fisher (IntEx volume ρ) (fun T => gaussianGradient cfg N.mod x (some (target T)) .input) (gaussianGgn cfg N.mod x .input) st n cfg.shape
      (aggFactor cfg.agg B) ∧
    (0 < p → cfg.shape = .diag ∨ ¬ N.Container →
      Fisher (IntEx volume ρ) (fun T => gaussianGradient cfg N.mod x (some (target T)) .weight) (gaussianGgn cfg N.mod x .weight) st p cfg.shape
        (aggFactor cfg.agg B)) := by
  have hF := fun T => gaussianForward_scalar h hh hB hx (ht T) hagg
  have eρ : ρ = fun T => ∏ l : Fin B × Fin k, normalPdf (N.out st (X l.1) l.2) (T l) := by
    funext T
    simp only [normalPdf]
    rw [hρ, likelihood_eq hB (hF T), Real.exp_sum, Finset.prod_mul_distrib, Finset.prod_const, Finset.card_univ, Fintype.card_prod, Fintype.card_fin,
      Fintype.card_fin, inv_pow, Fintype.prod_prod_type]
    congr 1
    refine Finset.prod_congr rfl fun b _ => ?_
    rw [gaussLL, Finset.mul_sum, Real.exp_sum]
  subst eρ
  have h1 : ∀ l : Fin B × Fin k, IntEx volume (normalPdf (N.out st (X l.1) l.2)) (fun _ => 1) 1 := fun l => normal_one _
  have hm : ∀ (b : Fin B) (i : Fin k), IntEx volume (fun T : Fin B × Fin k → ℝ => ∏ l, normalPdf (N.out st (X l.1) l.2) (T l))
      (fun T => T (b, i) - N.out st (X b) i) 0 := fun b i => prod_mean h1 (l := (b, i)) (normal_mean _)
  have hc : ∀ (b : Fin B) (i : Fin k) (b' : Fin B) (i' : Fin k), IntEx volume (fun T : Fin B × Fin k → ℝ => ∏ l, normalPdf (N.out st (X l.1) l.2) (T l))
      (fun T => (T (b, i) - N.out st (X b) i) * (T (b', i') - N.out st (X b') i'))
      (if b = b' then -(diagonal (fun _ => -1) i i') else 0) := fun b i b' i' => by
    refine (prod_moment h1 (l := (b, i)) (m := (b', i')) (u := fun t => t - N.out st (X b) i) (v := fun t => t - N.out st (X b') i')
      (normal_mean _) (normal_mean _) (a := 1) ?_).congr (fun _ => rfl) ?_
    · intro e
      obtain ⟨rfl, rfl⟩ := Prod.mk.inj e
      exact normal_var _
    · by_cases e1 : b = b'
      · by_cases e2 : i = i'
        · rw [if_pos e1, if_pos (by rw [e1, e2]), e2, diagonal_apply_eq, neg_neg]
        · rw [if_pos e1, if_neg (fun e => e2 (Prod.mk.inj e).2), diagonal_apply_ne _ e2, neg_zero]
      · rw [if_neg e1, if_neg (fun e => e1 (Prod.mk.inj e).1)]
  refine ⟨fun T => ⟨_, hF T⟩, prod_one h1, ?_, fun hp hN => ?_⟩
  · exact fisher_input hsh (fun T => gaussianGradient_run h hh hB hx (ht T) hagg) (gaussianGgn_run h hh hB hx hagg hbp) hm hc
  · refine fisher_weight hp ?_ (fun T => gaussianGradient_run h hh hB hx (ht T) hagg) (gaussianGgn_run h hh hB hx hagg hbp) hm hc
    rcases hsh with e | e
    · exact .inl e
    · exact .inr ⟨e, hN.resolve_left (by rw [e]; simp)⟩

/-! ### the hypotheses can be met -/

/-- a tensor of targets -/
noncomputable def targets (s : List Nat) {B k : Nat} (T : Fin B → Fin k → ℝ) : Tensor ℝ :=
  ⟨B :: s, fun l => if h : l / k < B ∧ 0 < k then T ⟨l / k, h.1⟩ ⟨l % k, Nat.mod_lt _ h.2⟩ else 0⟩

theorem targets_isBatch {s : List Nat} {B k : Nat} (T : Fin B → Fin k → ℝ) : IsBatch (targets s T) B s k T := by
  refine ⟨rfl, fun b i => ?_⟩
  have hk : 0 < k := Nat.lt_of_le_of_lt (Nat.zero_le _) i.2
  have h1 : (b.val * k + i.val) / k = b.val := by
    rw [Nat.add_comm, Nat.add_mul_div_right _ _ hk, Nat.div_eq_of_lt i.2, Nat.zero_add]
  have h2 : (b.val * k + i.val) % k = i.val := by rw [Nat.add_comm, Nat.add_mul_mod_self_right, Nat.mod_eq_of_lt i.2]
  simp only [targets, h1, h2]
  exact dif_pos ⟨b.2, hk⟩

example : Fisher (SumEx fun T : Fin 2 × Fin 1 → Bool => likelihood (binaryForward exCfg exNet.mod exInput (some (targets [1] fun b i => bitVal (T (b, i))))) exStore .average 2)
    (fun T => binaryGradient exCfg exNet.mod exInput (some (targets [1] fun b i => bitVal (T (b, i)))) .weight) (binaryGgn exCfg exNet.mod exInput .weight)
    exStore 21 .diag (aggFactor .average 2) :=
  (C73_binary exNet_ok exNet_hooks (by norm_num) exInput_isBatch (cfg := exCfg) (.inr rfl) rfl (.inl rfl) (fun _ => targets_isBatch _) fun _ => rfl).2.2.2
    (by norm_num) (.inl rfl)

example : SumEx (fun T : Fin 2 → Fin 3 => likelihood (bernoulliForward ⟨.sum, .full, .exact⟩ clsNet.mod exInput (some (targets [3] fun b => oneHot (T b)))) exStore .sum 2)
    (fun _ => 1) 1 :=
  (C73_bernoulli clsNet_ok clsNet_hooks (by norm_num) exInput_isBatch (.inl rfl) rfl (.inr rfl) (fun _ => targets_isBatch _) fun _ => rfl).2.1

example : Fisher (IntEx MeasureTheory.volume fun T : Fin 2 × Fin 3 → ℝ => (Real.sqrt (2 * Real.pi) ^ (2 * 3))⁻¹ *
      likelihood (gaussianForward ⟨.sum, .full, .exact⟩ clsNet.mod exInput (some (targets [3] fun b i => T (b, i)))) exStore .sum 2)
    (fun T => gaussianGradient ⟨.sum, .full, .exact⟩ clsNet.mod exInput (some (targets [3] fun b i => T (b, i))) .input)
    (gaussianGgn ⟨.sum, .full, .exact⟩ clsNet.mod exInput .input) exStore 2 .full (aggFactor .sum 2) :=
  (C73_gaussian clsNet_ok clsNet_hooks (by norm_num) exInput_isBatch (.inl rfl) rfl (.inr rfl) (fun _ => targets_isBatch _) fun _ => rfl).2.2.1

end Props
end NNJ
