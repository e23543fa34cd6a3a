import Verif.Proofs.Notebook
import Verif.Proofs.UNet
import Verif.Props.Build
import Verif.Props.NoneMatrix
import Verif.Props.DiagBackprop

/-!
# C49: the programs of UNet.ipynb and README.md
-/

namespace NNJ
namespace Props
open Notebook Matrix Tensor

variable {s s' : List Nat} {n k p : Nat} {N : Net s n s' k p} {st : Store ℝ}
variable {B : Nat} {X : Fin B → Fin n → ℝ} {x t : Tensor ℝ} {T : Fin B → Fin k → ℝ}

/-- C49: any number of training steps returns; the weights go through a sequence `w 0, w 1, ...` starting at the present ones and
ending at what `get_weight()` returns afterwards, where each step subtracts from the weights the gradient `G i` of the loss
`½ Σ_b |f_w(x_b) - t_b|²` at `w i` (wherever the network is differentiable). -/
theorem C49_train (h : N.Ok st) (hh : st.hooks N.mod.id = []) (hs : N.paramIds.Nodup) (hp : 0 < p) (hB : 0 < B)
    (hx : IsBatch x B s n X) (ht : IsBatch t B s' k T) (steps : Nat) :
    ∃ (w G : Nat → Fin p → ℝ) (wt wt' : Tensor ℝ) (st' : Store ℝ),
      Returns N.mod.getWeight st wt ∧ IsVec1 wt p (w 0) ∧
      trainLoop N.mod B x t steps st = (.ok (), st') ∧ N.Ok st' ∧ st'.hooks = st.hooks ∧
      Returns N.mod.getWeight st' wt' ∧ IsVec1 wt' p (w steps) ∧
      ∀ i, w (i + 1) = w i - G i ∧ ((∀ b, N.sem.smooth (w i) (X b)) → HasGrad (l2Loss N.mod st x T) (G i) (w i)) := by
  obtain ⟨st', e, ok', hk, hw⟩ := trainLoop_run h hh hs hp hB hx ht steps
  obtain ⟨wt, g1, g2⟩ := h.getWeight hs hp
  obtain ⟨wt', g3, g4⟩ := ok'.getWeight hs hp
  refine ⟨fun i => (fun w => w + N.descent X T w)^[i] (N.w st), fun i => -N.descent X T ((fun w => w + N.descent X T w)^[i] (N.w st)), wt, wt', st',
    by rw [Returns, g1], g2, e, ok', hk, by rw [Returns, g3], by simp only [← hw]; exact g4, fun i => ⟨?_, l2Loss_grad h hs hB hx _⟩⟩
  simp only [Function.iterate_succ_apply', sub_neg_eq_add]

/-- C49: `parameter_std` is `1 / sqrt(1 + Σ_b g[b, j])`, where `g` is what `jTmjp(x, None, None, wrt="weight", from_diag=True,
to_diag=True, diag_backprop=True)` returns; it lies in `(0, 1]`.  Where diagonal backpropagation is exact (C11), this is
`1 / sqrt(1 + Σ_b Σ_o J[b, o, j]²)` for the Jacobian `J` in the weights. -/
theorem C49_std (h : N.Ok st) (hN : N.NoneIsIdentity true) (hp : 0 < p) (hB : 0 < B) (hx : IsBatch x B s n X) :
    ∃ r S g G jt J, Returns (parameterStd N.mod x) st r ∧ IsVec1 r p S ∧
      Returns (N.mod.jTmjp x none none .weight true true true) st (.tensor g) ∧ IsVec g B p G ∧
      Returns (N.mod.jacobian x none .weight) st (some jt) ∧ IsMat jt B k p J ∧
      (∀ j, S j = 1 / Real.sqrt (1 + ∑ b, G b j) ∧ 0 < S j ∧ S j ≤ 1) ∧
      ((∀ b, N.ExactW (N.w st) (X b)) → ∀ j, S j = 1 / Real.sqrt (1 + ∑ b, ∑ o, J b o j ^ 2)) := by
  obtain ⟨g, G, hg, hG, hQ⟩ := C11_jTmjp_weight h hB hx hp (A := ones [B, k]) (d := fun _ _ => 1) ⟨rfl, fun _ _ => rfl⟩
  rw [Returns, ← C12_jTmjp_eq h hB hx hN .weight true true (by simp)] at hg
  obtain ⟨r, hr, hR⟩ := parameterStd_run hg hG (by have := h.g.nParams; rwa [Net.mdl_m] at this)
  obtain ⟨jt, hj, hJ⟩ := h.jacW hB hx hp
  have e : ∀ j, Real.sqrt (1 / (∑ b, G b j + 1)) = 1 / Real.sqrt (1 + ∑ b, G b j) := fun j => by
    rw [Real.sqrt_div zero_le_one, Real.sqrt_one, add_comm]
  have pos : ∀ j, 0 ≤ ∑ b, G b j := fun j => Finset.sum_nonneg fun b _ => (hQ b).2 (fun _ => zero_le_one) j
  refine ⟨r, _, g, G, jt, _, hr, hR, hg, hG, hj, hJ, fun j => ⟨e j, ?_, ?_⟩, fun hE j => ?_⟩
  · rw [e]
    exact one_div_pos.2 (Real.sqrt_pos.2 (by linarith [pos j]))
  · rw [e]
    refine (div_le_one (Real.sqrt_pos.2 (by linarith [pos j]))).2 (Real.one_le_sqrt.2 (by linarith [pos j]))
  · rw [e]
    refine congrArg (fun a => 1 / Real.sqrt (1 + a)) (Finset.sum_congr rfl fun b _ => ?_)
    rw [(hQ b).1, N.QW_exact _ _ (hE b)]
    simp only [vecMul, dotProduct, one_mul, NNJ.sq, Net.JW]
    exact Finset.sum_congr rfl fun o _ => (pow_two _).symm

/-- C49: the predictions of the notebook are the outputs of the network with weights `std * eps`. -/
theorem C49_sample (h : N.Ok st) (hh : st.hooks N.mod.id = []) (hs : N.paramIds.Nodup) (hB : 0 < B) (hx : IsBatch x B s n X)
    {a e : Tensor ℝ} {S E : Fin p → ℝ} (ha : IsVec1 a p S) (he : IsVec1 e p E) :
    ∃ val, Returns (samplePrediction N.mod a e x) st val ∧ IsBatch val B s' k fun b => weightMap N.mod st x b fun j => S j * E j := by
  obtain ⟨val, st', h1, _, _, h2⟩ := samplePrediction_run h hh hs hB hx ha he
  refine ⟨val, by rw [Returns, h1], h2.congr fun b i => ?_⟩
  rw [h.weightMap_eq hs hB hx b]

/-- C49: hence they do not depend on the trained weights (the mode of the Laplace approximation, which the notebook stores as
`parameter_mean` and never uses): from any two states of the network, the same deviations and noise give the same predictions. -/
theorem C49_sample_forgets {st₁ st₂ : Store ℝ} (h₁ : N.Ok st₁) (h₂ : N.Ok st₂) (hh₁ : st₁.hooks N.mod.id = []) (hh₂ : st₂.hooks N.mod.id = [])
    (hs : N.paramIds.Nodup) (hB : 0 < B) (hx : IsBatch x B s n X) {a e : Tensor ℝ} {S E : Fin p → ℝ} (ha : IsVec1 a p S) (he : IsVec1 e p E) :
    ∃ val₁ val₂, Returns (samplePrediction N.mod a e x) st₁ val₁ ∧ Returns (samplePrediction N.mod a e x) st₂ val₂ ∧ TEq val₁ val₂ := by
  obtain ⟨v1, s1, e1, _, _, b1⟩ := samplePrediction_run h₁ hh₁ hs hB hx ha he
  obtain ⟨v2, s2, e2, _, _, b2⟩ := samplePrediction_run h₂ hh₂ hs hB hx ha he
  exact ⟨v1, v2, by rw [Returns, e1], by rw [Returns, e2], teq_batch h₁.g.hk b1 b2⟩

/-- C49: the README's `gradient`, averaged over the batch, is the gradient of `(1/B) Σ_b ½ |f_w(x_b) - t_b|²`; for networks
with vectors as outputs. -/
theorem C49_readme {N : Net s n [k] k p} (h : N.Ok st) (hh : st.hooks N.mod.id = []) (hs : N.paramIds.Nodup) (hp : 0 < p) (hB : 0 < B)
    (hx : IsBatch x B s n X) (ht : IsVec t B k T) :
    ∃ g G wt w, Returns (readmeGradient N.mod x t) st g ∧ IsVec1 g p G ∧ Returns N.mod.getWeight st wt ∧ IsVec1 wt p w ∧
      ((∀ b, N.sem.smooth w (X b)) → HasGrad (fun v => l2Loss N.mod st x T v / B) G w) := by
  obtain ⟨val, st1, h1, c⟩ := h.call_run hh hB hx
  obtain ⟨d, h3, hd⟩ := zipWithB_batch (· - ·) c.out (isVec_iff_batch.1 ht)
  obtain ⟨g, h5, hg⟩ := c.vjpW hB hx (isVec_iff_batch.2 hd) hp
  obtain ⟨r, h6, hr⟩ := mean0_vec hg
  obtain ⟨wt, h7, hw⟩ := h.getWeight hs hp
  refine ⟨r, _, wt, _, ?_, hr, by rw [Returns, h7], hw, fun hsm => ?_⟩
  · rw [Returns, readmeGradient, Prog.bind_ok h1, Tensor.sub, Res.lift_bind_ok h3, Prog.bind_ok h5]
    simp only
    rw [h6]; rfl
  · have := HasGrad.smul (1 / (B : ℝ)) (l2Loss_grad (T := T) h hs hB hx (N.w st) hsm)
    have e1 : (fun v => l2Loss (p := p) N.mod st x T v / B) = fun v => 1 / (B : ℝ) * l2Loss N.mod st x T v := by
      funext v; ring
    rw [e1]
    have e2 : (fun j => (∑ b, ((fun i => N.out st (X b) i - T b i) ᵥ* N.JW st (X b)) j) / (B : ℝ)) =
        fun j => 1 / (B : ℝ) * (-N.descent X T (N.w st)) j := by
      funext j
      rw [Pi.neg_apply, Net.descent, ← Finset.sum_neg_distrib, div_eq_mul_one_div, mul_comm]
      refine congrArg (1 / (B : ℝ) * ·) (Finset.sum_congr rfl fun b _ => ?_)
      simp only [vecMul, dotProduct, Net.out, Net.JW, ← Finset.sum_neg_distrib]
      exact Finset.sum_congr rfl fun o _ => by ring
    rw [e2]
    exact this

/-- C49: the README's call for the Gauss-Newton matrix, `model.jTmjp(x, val, None, wrt="weights", to_diag=True,
diag_backprop=True)`, raises AssertionError on every Sequential, since `from_diag` is left at False; it would also with
`wrt="weight"`. -/
theorem C49_readme_ggn (id : Nat) (b : Bool) (ms : List (Mod ℝ)) (x : Tensor ℝ) (val : Option (Tensor ℝ)) (wrt : Wrt) (st : Store ℝ) :
    (Sequential.mod id b ms).jTmjp x val none wrt false true true st = (.error .assertion, st) := by
  rfl

/-- C49: the notebook runs.  On images of `16 h x 16 w` pixels, from parameters with the shapes given by the constructors: the
expression for the network builds an object with 21976513 parameters (the number the notebook prints); then any number of training
steps, the deviations and the prediction for any noise return, the latter with the shape of the images. -/
theorem C49_unet (h w : Nat) (hh : 0 < h) (hw : 0 < w) {st : Store ℝ} (hS : (UNet.unet h w hh hw).Shapes st) (hk : ∀ i, st.hooks i = [])
    (hB : 0 < B) {X T : Fin B → Fin (1 * (h * 2 * 2 * 2 * 2) * (w * 2 * 2 * 2 * 2)) → ℝ}
    (hx : IsBatch x B [1, h * 2 * 2 * 2 * 2, w * 2 * 2 * 2 * 2] (1 * (h * 2 * 2 * 2 * 2) * (w * 2 * 2 * 2 * 2)) X)
    (ht : IsBatch t B [1, h * 2 * 2 * 2 * 2, w * 2 * 2 * 2 * 2] (1 * (h * 2 * 2 * 2 * 2) * (w * 2 * 2 * 2 * 2)) T) (steps : Nat)
    {eps : Tensor ℝ} {E : Fin 21976513 → ℝ} (he : IsVec1 eps 21976513 E) :
    ∃ m st1 st2 r val, (UNet.unet h w hh hw).build st = (.ok m, st1) ∧ m.nParams = 21976513 ∧
      trainLoop m B x t steps st1 = (.ok (), st2) ∧ Returns (parameterStd m x) st2 r ∧
      Returns (samplePrediction m r eps x) st2 val ∧ val.shape = [B, 1, h * 2 * 2 * 2 * 2, w * 2 * 2 * 2 * 2] := by
  have hnd : (UNet.unet h w hh hw).ids.Nodup := by rw [UNet.unet_ids]; decide
  have hps : (UNet.unet h w hh hw).paramIds.Nodup := by rw [UNet.unet_paramIds]; decide
  obtain ⟨m, st1, hb, rfl, hwd, hk1, _⟩ := (UNet.unet h w hh hw).build_run hnd hS fun i _ => hk i
  have ok1 : (UNet.unet h w hh hw).Ok st1 := ⟨hnd, hwd⟩
  obtain ⟨_, _, _, _, st2, _, _, htr, ok2, hk2, _⟩ := C49_train ok1 hk1 hps (by norm_num) hB hx ht steps
  obtain ⟨r, S, _, _, _, _, hr, hR, _⟩ := C49_std ok2 (UNet.unet_noneIsIdentity h w hh hw) (by norm_num) hB hx
  obtain ⟨val, hv, hV⟩ := C49_sample ok2 (by rw [hk2]; exact hk1) hps hB hx hR he
  have hn := ok1.g.nParams
  rw [Net.mdl_m] at hn
  exact ⟨_, st1, st2, r, val, hb, hn, htr, hr, hv, hV.1⟩

/-- 512 x 512 images, batch of 4, as in the notebook; the parameters of `unetStore` -/
example : (UNet.unet 32 32 (by norm_num) (by norm_num)).Shapes UNet.unetStore ∧ (∀ i, UNet.unetStore.hooks i = []) ∧
    IsBatch (⟨[4, 1, 512, 512], fun i => (i : ℝ)⟩ : Tensor ℝ) 4 [1, 32 * 2 * 2 * 2 * 2, 32 * 2 * 2 * 2 * 2]
      (1 * (32 * 2 * 2 * 2 * 2) * (32 * 2 * 2 * 2 * 2)) fun b i => ((b * 262144 + i : Nat) : ℝ) :=
  ⟨UNet.unet_shapes _ _ _ _, fun _ => rfl, by norm_num, fun b i => by norm_num⟩

/-- the example network (its output is a vector, as the README needs) meets the hypotheses of the other theorems -/
example : exNet.Ok exStore ∧ exStore.hooks exNet.mod.id = [] ∧ exNet.paramIds.Nodup ∧ exNet.NoneIsIdentity true ∧
    IsBatch exInput 2 [2] 2 (fun b i => (2 * b + i : ℝ)) ∧ IsVec (⟨[2, 1], fun i => i⟩ : Tensor ℝ) 2 1 fun b _ => (b : ℝ) :=
  ⟨exNet_ok, rfl, by simp only [exNet, Net.paramIds, Chain.paramIds]; decide, trivial, exInput_isBatch, rfl, fun b i => by simp [Tensor.get, ravel, size]⟩

/-- a single Linear layer: diagonal backpropagation is exact -/
example : (Net.linear 1 0 (some 1) 2 3 (by norm_num) (by norm_num)).ExactW (fun _ => 1) (fun _ => 1) ∧
    (Net.linear 1 0 (some 1) 2 3 (by norm_num) (by norm_num)).NoneIsIdentity true := ⟨by trivial, trivial⟩

end Props
end NNJ
