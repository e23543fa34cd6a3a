import Verif.Model.Notebook
import Verif.Spec.Notebook
import Verif.Proofs.Weights
import Verif.Proofs.LogLikGrad
import Verif.Proofs.Benchmark
import Verif.Proofs.NoneNet

/-!
# The programs of the notebook
-/

namespace NNJ
open Tensor Matrix LogLik Notebook

variable {s s' : List Nat} {n k p : Nat} {N : Net s n s' k p} {st : Store ℝ}
variable {B : Nat} {X : Fin B → Fin n → ℝ} {x t : Tensor ℝ} {T : Fin B → Fin k → ℝ}

/-- what is added to the weights -/
noncomputable def Net.descent (N : Net s n s' k p) (X : Fin B → Fin n → ℝ) (T : Fin B → Fin k → ℝ) (w : Fin p → ℝ) : Fin p → ℝ :=
  fun j => ∑ b, ((fun i => T b i - N.sem.f w (X b) i) ᵥ* N.sem.JW w (X b)) j

theorem sum0_vec {a : Tensor ℝ} {U : Fin B → Fin k → ℝ} (ha : IsVec a B k U) : ∃ r, a.sum0 = .ok r ∧ IsVec1 r k fun i => ∑ b, U b i := by
  obtain ⟨r, hr, hR⟩ := sum0_batch (isVec_iff_batch.1 ha) (by simp)
  exact ⟨r, hr, hR⟩

theorem zip_vec1 (f : ℝ → ℝ → ℝ) {a b : Tensor ℝ} {U V : Fin k → ℝ} (ha : IsVec1 a k U) (hb : IsVec1 b k V) :
    ∃ r, zipWithB f a b = .ok r ∧ IsVec1 r k fun i => f (U i) (V i) := by
  refine ⟨⟨a.shape, fun i => f (a.data i) (b.data i)⟩, by simp only [zipWithB, ha.1, hb.1, if_true], ha.1, fun i => ?_⟩
  show f _ _ = _
  rw [ha.2, hb.2]

/-- `vjp` in the state after `val = model(x)` -/
theorem AtVal.vjpW {val u : Tensor ℝ} {U : Fin B → Fin k → ℝ} {st1 : Store ℝ} (c : AtVal N st X val st1) (hB : 0 < B)
    (hx : IsBatch x B s n X) (hu : IsVec u B k U) (hp : 0 < p) :
    ∃ g, N.mod.vjp x (some val) u .weight st1 = (.ok (some g), st1) ∧ IsVec g B p fun b => U b ᵥ* N.JW st (X b) := by
  have eW : N.mdl.JW st1 X = fun b => N.JW st (X b) := by rw [Net.mdl_JW]; funext b; rw [Net.JW, Net.JW, c.w]
  have hW := (c.ok.g.vjpW c.ok.w hB hx hu).1 val c.vok c.cache
  rw [Net.mdl_m, eW] at hW
  obtain ⟨r, s1, h1, h2, rfl⟩ := hW
  rw [OptW, if_neg (by omega)] at h2
  cases r with
  | none => exact h2.elim
  | some g => exact ⟨g, h1, h2⟩

theorem trainStep_run (h : N.Ok st) (hh : st.hooks N.mod.id = []) (hs : N.paramIds.Nodup) (hp : 0 < p) (hB : 0 < B)
    (hx : IsBatch x B s n X) (ht : IsBatch t B s' k T) :
    ∃ st', trainStep N.mod B x t st = (.ok (), st') ∧ N.Ok st' ∧ st'.hooks = st.hooks ∧ N.w st' = N.w st + N.descent X T (N.w st) := by
  obtain ⟨val, st1, h1, c⟩ := h.call_run hh hB hx
  obtain ⟨d, h3, hd⟩ := zipWithB_batch (· - ·) ht c.out
  obtain ⟨r, h4, hr⟩ := reshapeInfer_batch hd h.g.hk hB
  obtain ⟨g, h5, hg⟩ := c.vjpW hB hx hr hp
  obtain ⟨u, h6, hu⟩ := sum0_vec hg
  obtain ⟨wt, h7, hw⟩ := c.ok.getWeight hs hp
  obtain ⟨v, h8, hv⟩ := zip_vec1 (· + ·) hw hu
  obtain ⟨st2, h9, hS, hok, hw2⟩ := c.ok.setWeight hs (v := v) (by simp [Tensor.numel, hv.1, size])
  refine ⟨st2, ?_, hok, ?_, ?_⟩
  · rw [trainStep, Prog.bind_ok h1, Tensor.sub, Res.lift_bind_ok h3, Res.lift_bind_ok h4, Prog.bind_ok h5]
    simp only
    rw [Res.lift_bind_ok h6, Prog.bind_ok h7, Tensor.add, Res.lift_bind_ok h8]
    exact h9
  · rw [hS.wiring.hooks, c.step.hooks]
  · funext i
    rw [hw2, hv.2, c.w]
    rfl

theorem trainLoop_run (h : N.Ok st) (hh : st.hooks N.mod.id = []) (hs : N.paramIds.Nodup) (hp : 0 < p) (hB : 0 < B)
    (hx : IsBatch x B s n X) (ht : IsBatch t B s' k T) (steps : Nat) :
    ∃ st', trainLoop N.mod B x t steps st = (.ok (), st') ∧ N.Ok st' ∧ st'.hooks = st.hooks ∧
      N.w st' = (fun w => w + N.descent X T w)^[steps] (N.w st) := by
  induction steps with
  | zero => exact ⟨st, rfl, h, rfl, rfl⟩
  | succ i ih =>
    obtain ⟨st1, e1, ok1, hk1, w1⟩ := ih
    obtain ⟨st2, e2, ok2, hk2, w2⟩ := trainStep_run ok1 (by rw [hk1]; exact hh) hs hp hB hx ht
    refine ⟨st2, ?_, ok2, hk2.trans hk1, ?_⟩
    · rw [trainLoop, Prog.bind_ok e1]; exact e2
    · rw [w2, w1, Function.iterate_succ_apply']

theorem l2Loss_eq (h : N.Ok st) (hs : N.paramIds.Nodup) (hB : 0 < B) (hx : IsBatch x B s n X) :
    (l2Loss (p := p) N.mod st x T) = fun w => ∑ b, (-1 : ℝ) * gaussLL (N.sem.f w (X b)) (T b) := by
  funext w
  rw [l2Loss]
  refine Finset.sum_congr rfl fun b _ => ?_
  rw [h.weightMap_eq hs hB hx b, gaussLL]
  ring

/-- the update is the negative gradient of the loss -/
theorem l2Loss_grad (h : N.Ok st) (hs : N.paramIds.Nodup) (hB : 0 < B) (hx : IsBatch x B s n X) (w : Fin p → ℝ)
    (hsm : ∀ b, N.sem.smooth w (X b)) : HasGrad (l2Loss N.mod st x T) (-N.descent X T w) w := by
  rw [l2Loss_eq h hs hB hx]
  have := HasGrad.sum (x := w) (l := fun b w => (-1 : ℝ) * gaussLL (N.sem.f w (X b)) (T b))
    fun b => HasGrad.smul (-1) (HasGrad.comp (f := fun w => N.sem.f w (X b)) (gaussLL_grad _ (T b)) (N.diff _ _ (hsm b)).weight)
  have e : (-N.descent X T w) = fun j => ∑ b, (-1 : ℝ) * ((fun i => T b i - N.sem.f w (X b) i) ᵥ* N.sem.JW w (X b)) j := by
    funext j
    simp [Net.descent]
  rw [e]
  exact this

/-- `1 / (a + 1)` and its root -/
theorem parameterStd_run {g : Tensor ℝ} {G : Fin B → Fin p → ℝ} (hg : Returns (N.mod.jTmjp x none none .weight true true true) st (.tensor g))
    (hG : IsVec g B p G) (hn : N.mod.nParams = p) :
    ∃ r, Returns (parameterStd N.mod x) st r ∧ IsVec1 r p fun j => Real.sqrt (1 / (∑ b, G b j + 1)) := by
  obtain ⟨u, h6, hu⟩ := sum0_vec hG
  obtain ⟨v, h8, hv⟩ := zip_vec1 (· + ·) hu (V := fun _ => 1) (b := ones [p]) ⟨rfl, fun _ => rfl⟩
  refine ⟨(v.map fun a => 1 / a).map Real.sqrt, ?_, hv.1, fun j => ?_⟩
  · rw [Returns] at hg ⊢
    rw [parameterStd]
    generalize N.mod.jTmjp x none none .weight true true true = q at hg
    rw [Prog.bind_ok (show q st = (.ok (.tensor g), (q st).2) from Prod.ext hg rfl)]
    simp only
    have : u.addInPlace (ones [p]) = .ok v := by
      rw [addInPlace, Tensor.add, h8]
      simp only [Res.bind_ok]
      rw [if_pos (by rw [hu.1, hv.1])]
    rw [Res.lift_bind_ok h6, hn, Res.lift_bind_ok this]
    rfl
  · show Real.sqrt (1 / v.data j) = _
    rw [hv.2]

theorem samplePrediction_run (h : N.Ok st) (hh : st.hooks N.mod.id = []) (hs : N.paramIds.Nodup) (hB : 0 < B) (hx : IsBatch x B s n X)
    {a e : Tensor ℝ} {S E : Fin p → ℝ} (ha : IsVec1 a p S) (he : IsVec1 e p E) :
    ∃ val st', samplePrediction N.mod a e x st = (.ok val, st') ∧ N.Ok st' ∧ N.w st' = (fun j => S j * E j) ∧
      IsBatch val B s' k fun b => N.sem.f (fun j => S j * E j) (X b) := by
  obtain ⟨v, h8, hv⟩ := zip_vec1 (· * ·) ha he
  obtain ⟨st1, h9, hS, hok, hw⟩ := h.setWeight hs (v := v) (by simp [Tensor.numel, hv.1, size])
  have hw' : N.w st1 = fun j => S j * E j := by funext i; rw [hw, hv.2]
  obtain ⟨val, st2, h1, c⟩ := hok.call_run (by rw [hS.wiring.hooks]; exact hh) hB hx
  refine ⟨val, st2, ?_, c.ok, c.w.trans hw', ?_⟩
  · rw [samplePrediction, Tensor.mul, Res.lift_bind_ok h8, Prog.bind_ok h9]; exact h1
  · rw [← hw']; exact c.out

end NNJ
