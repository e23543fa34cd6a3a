import Verif.Proofs.LogLik

/-! The likelihood methods on a supported network. -/

namespace NNJ
open Tensor Matrix LogLik

/-! ### tensors -/

section
variable {B k : Nat} {s : List Nat} {X Y : Fin B → Fin k → ℝ} {a t : Tensor ℝ}

theorem zipWithB_batch (f : ℝ → ℝ → ℝ) (ha : IsBatch a B s k X) (ht : IsBatch t B s k Y) :
    Ret (zipWithB f a t) fun r => IsBatch r B s k fun b i => f (X b i) (Y b i) := by
  simp only [zipWithB, ha.1, ht.1, if_true]
  exact Ret.ok ⟨rfl, fun b i => by simp only [ha.2, ht.2]⟩

theorem checkTarget_batch (ha : IsBatch a B s k X) (ht : IsBatch t B s k Y) : Ret (checkTarget a (some t)) fun r => r = t := by
  simp only [checkTarget]
  exact (Ret.assertR (by rw [ha.1, ht.1])).bind fun _ _ => Ret.pure rfl

theorem sum1_vec (ha : IsVec a B k X) : Ret a.sum1 fun r => IsVec1 r B fun b => ∑ i, X b i := by
  simp only [sum1, ha.1]
  refine Ret.ok ⟨rfl, fun b => ?_⟩
  simp only [sumRange_eq]
  exact Finset.sum_congr rfl fun i _ => ha.data b i

theorem aggForward_vec {L : Fin B → ℝ} {agg : AggArg} (hagg : agg = .sum ∨ agg = .average) (ha : IsVec1 a B L) :
    Ret (aggForward agg a) (IsSome fun v => v.shape = [] ∧ v.data 0 = aggFactor agg B * ∑ b, L b) := by
  have e : sumRange a.numel a.data = ∑ b, L b := by
    rw [Tensor.numel, ha.1, size_cons, size_nil, mul_one, sumRange_eq]
    exact Finset.sum_congr rfl fun b _ => ha.2 b
  rcases hagg with rfl | rfl
  · exact Ret.ok ⟨rfl, by simp only [sumAll, e, aggFactor]; simp⟩
  · refine Ret.ok ⟨rfl, ?_⟩
    simp only [meanAll, sumAll, Tensor.map, e, aggFactor, if_true]
    rw [Tensor.numel, ha.1]
    simp only [size_cons, size_nil, mul_one]
    ring

theorem sum0_batch (ha : IsBatch a B s k X) (hs : size s = k) : Ret a.sum0 fun r => r.shape = s ∧ ∀ i : Fin k, r.data i = ∑ b, X b i := by
  simp only [sum0, ha.1]
  refine Ret.ok ⟨rfl, fun i => ?_⟩
  simp only [sumRange_eq, hs]
  exact Finset.sum_congr rfl fun b _ => ha.2 b i

theorem aggValue_batch {agg : AggArg} (hagg : agg = .sum ∨ agg = .average) (ha : IsBatch a B s k X) (hs : size s = k) :
    Ret (aggValue agg (.tensor a)) (IsTensor fun r => r.shape = s ∧ ∀ i : Fin k, r.data i = aggFactor agg B * ∑ b, X b i) := by
  rcases hagg with rfl | rfl
  · simp only [aggValue, PyVal.toTensor, Res.bind_ok]
    exact (sum0_batch ha hs).map fun r hr => ⟨hr.1, fun i => by rw [hr.2, aggFactor]; simp⟩
  · simp only [aggValue, PyVal.toTensor, Res.bind_ok, mean0, ha.dim0]
    refine Ret.map (P := fun r : Tensor ℝ => r.shape = s ∧ ∀ i : Fin k, r.data i = aggFactor .average B * ∑ b, X b i) ?_ (fun _ h => isTensor_iff.2 ⟨_, rfl, h⟩)
    refine (sum0_batch ha hs).bind fun r hr => Ret.pure ⟨hr.1, fun i => ?_⟩
    simp only [Tensor.map, hr.2, aggFactor, if_true]
    ring

theorem aggValue_vec {agg : AggArg} (hagg : agg = .sum ∨ agg = .average) (ha : IsVec a B k X) :
    Ret (aggValue agg (.tensor a)) (IsTensor fun r => IsVec1 r k fun i => aggFactor agg B * ∑ b, X b i) :=
  aggValue_batch hagg (isVec_iff_batch.1 ha) (by simp)

theorem aggValue_mat {agg : AggArg} (hagg : agg = .sum ∨ agg = .average) {m n : Nat} {M : Fin B → Matrix (Fin m) (Fin n) ℝ} (ha : IsMat a B m n M) :
    Ret (aggValue agg (.tensor a)) (IsTensor fun r => IsMat1 r m n fun i j => aggFactor agg B * ∑ b, M b i j) := by
  have hb : IsBatch a B [m, n] (m * n) fun b l => M b (finProdFinEquiv.symm l).1 (finProdFinEquiv.symm l).2 := by
    refine ⟨ha.1, fun b l => ?_⟩
    obtain ⟨⟨i, j⟩, rfl⟩ := finProdFinEquiv.surjective l
    refine Eq.trans ?_ ((ha.data b i j).trans ?_)
    · congr 1
      simp only [finProdFinEquiv, Equiv.coe_fn_mk]
      ring
    · simp only [Equiv.symm_apply_apply]
  refine (aggValue_batch hagg hb (by simp)).mono fun v hv => ?_
  obtain ⟨r, rfl, hr⟩ := isTensor_iff.1 hv
  refine ⟨hr.1, fun i j => ?_⟩
  rw [get2 hr.1]
  have := hr.2 (finProdFinEquiv (i, j))
  simp only [Equiv.symm_apply_apply] at this
  refine Eq.trans ?_ this
  congr 1
  simp only [finProdFinEquiv, Equiv.coe_fn_mk]
  ring

theorem lastSum_batch {c : Nat} (f : ℝ → ℝ) (ha : IsBatch a B s k X) (hs : size s = k) (hc : s.getLast? = some c) (hk : 0 < k) :
    Ret (lastSum f a) fun r => IsBatch r B s k fun b i => ∑ j ∈ classRow c i, f (X b j) := by
  have hl : a.shape.getLast? = some c := by rw [ha.1]; cases s <;> simp_all
  simp only [lastSum, hl]
  refine Ret.ok ⟨ha.1, fun b i => ?_⟩
  -- `k` is a multiple of `c`
  obtain ⟨q, rfl⟩ : ∃ q, k = q * c := by
    obtain ⟨s0, rfl⟩ : ∃ s0, s = s0 ++ [c] := by
      rw [List.getLast?_eq_some_iff] at hc; exact hc
    exact ⟨size s0, by rw [← hs, size_append]; simp⟩
  have hc0 : 0 < c := Nat.pos_of_mul_pos_left hk
  have e : ((b : Nat) * (q * c) + i) / c * c = b * (q * c) + i / c * c := by
    rw [show (b : Nat) * (q * c) + i = i + (b * q) * c by ring, Nat.add_mul_div_right _ _ hc0]; ring
  have hi : (i : Nat) / c < q := Nat.div_lt_of_lt_mul (i.2.trans_eq (Nat.mul_comm q c))
  simp only [e, sumRange_eq]
  refine Finset.sum_bij (fun (j : Fin c) _ => (⟨i / c * c + j, by
      have := j.2
      calc (i : Nat) / c * c + j < i / c * c + c := by omega
        _ = (i / c + 1) * c := by ring
        _ ≤ q * c := Nat.mul_le_mul_right _ hi⟩ : Fin (q * c))) ?_ ?_ ?_ ?_
  · intro j _
    rw [mem_classRow]
    simp only
    rw [Nat.add_comm, Nat.add_mul_div_right _ _ hc0, Nat.div_eq_of_lt j.2]; simp
  · intro j _ j' _ h
    simpa [Fin.ext_iff] using h
  · intro j hj
    rw [mem_classRow] at hj
    refine ⟨⟨j % c, Nat.mod_lt _ hc0⟩, Finset.mem_univ _, Fin.ext ?_⟩
    simp only
    rw [← hj]; exact Nat.div_add_mod' j c
  · intro j _
    rw [← ha.2 b]
    congr 2
    simp only; ring

theorem bernoulliProb_batch {c : Nat} (ha : IsBatch a B s k X) (hs : size s = k) (hc : s.getLast? = some c) (hk : 0 < k) :
    Ret (bernoulliProb a) fun r => IsBatch r B s k fun b i => softmax c (X b) i := by
  simp only [bernoulliProb]
  exact (lastSum_batch _ ha hs hc hk).bind fun u hu => zipWithB_batch _ (ha.map _) hu

end

/-! ### calls -/

section
variable {s s' : List Nat} {n k p : Nat} {N : Net s n s' k p} {st : Store ℝ}
variable {B : Nat} {X : Fin B → Fin n → ℝ} {x t : Tensor ℝ} {T : Fin B → Fin k → ℝ}

/-- outputs of the network -/
noncomputable def Net.out (N : Net s n s' k p) (st : Store ℝ) (x : Fin n → ℝ) : Fin k → ℝ := N.sem.f (N.w st) x

/-- state after `val = model(x)` -/
structure AtVal (N : Net s n s' k p) (st : Store ℝ) (X : Fin B → Fin n → ℝ) (val : Tensor ℝ) (st1 : Store ℝ) : Prop where
  out : IsBatch val B s' k fun b => N.out st (X b)
  ok : N.Ok st1
  w : N.w st1 = N.w st
  cache : N.mdl.cache B X st1
  step : Step N.mdl.ids st st1

theorem Net.Ok.call_run (h : N.Ok st) (hh : st.hooks N.mod.id = []) (hB : 0 < B) (hx : IsBatch x B s n X) :
    Run (N.mod.call x) st fun val st1 => AtVal N st X val st1 := by
  have hf := h.g.forward h.w hB hx
  rw [Net.mdl_m, Net.mdl_Y] at hf
  obtain ⟨val, st1, hv, hval, hs, hcache⟩ := hf
  refine ⟨val, st1, ?_, hval, h.of_wiring hs.wiring, by rw [← N.mdl_w]; exact h.g.w_of hs.param, hcache, hs⟩
  simp only [Mod.call]
  rw [Prog.bind_ok hv, Prog.bind_read_run, hs.hooks, hh]
  rfl

theorem AtVal.vok {val : Tensor ℝ} {st1 : Store ℝ} (c : AtVal N st X val st1) : N.mdl.VOk st1 X val :=
  Or.inr (by rw [Net.mdl_Y, c.w]; exact c.out)

/-- posterior of a forward call -/
theorem returnsScalar {call : Prog ℝ (Option (Tensor ℝ))} {a : ℝ}
    (h : Run call st fun r _ => IsSome (fun v => v.shape = [] ∧ v.data 0 = a) r) : ReturnsScalar call st a := by
  obtain ⟨r, s1, h1, h2⟩ := h
  cases r with
  | none => exact h2.elim
  | some v => exact ⟨v, by rw [Returns, h1], h2⟩

theorem ReturnsScalar.scalarOf_eq {call : Prog ℝ (Option (Tensor ℝ))} {a : ℝ} (h : ReturnsScalar call st a) : scalarOf call st = a := by
  obtain ⟨v, h1, _, h3⟩ := h
  rw [Returns] at h1
  simp only [scalarOf, h1, h3]

theorem runTensor {call : Prog ℝ (PyVal ℝ)} {P : Tensor ℝ → Prop} (h : Run call st fun r _ => IsTensor P r) :
    ∃ t, Returns call st (.tensor t) ∧ P t := by
  obtain ⟨r, s1, h1, h2⟩ := h
  obtain ⟨t, rfl, ht⟩ := isTensor_iff.1 h2
  exact ⟨t, by rw [Returns, h1], ht⟩

/-- gradient calls: `vjp` with `val`, then aggregation -/
theorem AtVal.vjp_agg {val u : Tensor ℝ} {U : Fin B → Fin k → ℝ} {st1 : Store ℝ} (c : AtVal N st X val st1) (hB : 0 < B)
    (hx : IsBatch x B s n X) {agg : AggArg} (hagg : agg = .sum ∨ agg = .average) (hu : IsVec u B k U) :
    (Run (do let g ← N.mod.vjp x (some val) u .input; (aggValue agg (PyVal.ofOption g) : Res _)) st1 fun r _ =>
      IsTensor (fun g => IsVec1 g n fun i => aggFactor agg B * ∑ b, (U b ᵥ* N.J st (X b)) i) r) ∧
    (0 < p → Run (do let g ← N.mod.vjp x (some val) u .weight; (aggValue agg (PyVal.ofOption g) : Res _)) st1 fun r _ =>
      IsTensor (fun g => IsVec1 g p fun i => aggFactor agg B * ∑ b, (U b ᵥ* N.JW st (X b)) i) r) ∧
    (p = 0 → ((do let g ← N.mod.vjp x (some val) u .weight; (aggValue agg (PyVal.ofOption g) : Res _)) st1).1 = .error .type) := by
  have eJ : N.mdl.J st1 X = fun b => N.J st (X b) := by rw [Net.mdl_J]; funext b; rw [Net.J, Net.J, c.w]
  have eW : N.mdl.JW st1 X = fun b => N.JW st (X b) := by rw [Net.mdl_JW]; funext b; rw [Net.JW, Net.JW, c.w]
  have hI := (c.ok.g.vjpI c.ok.w hB hx hu).1 val c.vok c.cache
  have hW := (c.ok.g.vjpW c.ok.w hB hx hu).1 val c.vok c.cache
  rw [Net.mdl_m, eJ] at hI
  rw [Net.mdl_m, eW] at hW
  refine ⟨hI.bind fun g s1 hg => ?_, fun hp => hW.bind fun g s1 hg => ?_, fun hp => ?_⟩
  · cases g with
    | none => exact hg.1.elim
    | some g => exact Run.lift (aggValue_vec hagg hg.1) fun _ h => h
  · rw [OptW, if_neg (by omega)] at hg
    cases g with
    | none => exact hg.1.elim
    | some g => exact Run.lift (aggValue_vec hagg hg.1) fun _ h => h
  · obtain ⟨r, s1, h1, h2, rfl⟩ := hW
    rw [OptW, if_pos hp] at h2
    subst h2
    rw [Prog.bind_ok h1]
    rcases hagg with rfl | rfl <;> rfl

/-! forward values -/

theorem gaussianForward_scalar (h : N.Ok st) (hh : st.hooks N.mod.id = []) (hB : 0 < B) (hx : IsBatch x B s n X) (ht : IsBatch t B s' k T)
    {cfg : Cfg} (hagg : cfg.agg = .sum ∨ cfg.agg = .average) :
    ReturnsScalar (gaussianForward cfg N.mod x (some t)) st (aggFactor cfg.agg B * ∑ b, gaussLL (N.out st (X b)) (T b)) := by
  refine returnsScalar (Run.bindLift (P := fun r => r = B) ⟨_, hx.dim0, rfl⟩ ?_)
  rintro _ rfl
  refine (h.call_run hh hB hx).bind fun val st1 c => ?_
  refine Run.bindLift (checkTarget_batch c.out ht) ?_
  rintro _ rfl
  refine Run.bindLift (zipWithB_batch _ c.out ht) fun d hd => ?_
  refine Run.bindLift (reshapeInfer_batch (hd.map _) h.g.hk hB) fun l hl => ?_
  refine Run.bindLift (sum1_vec hl) fun l hl => ?_
  refine Run.lift (aggForward_vec hagg hl) fun r hr => ?_
  cases r with
  | none => exact hr.elim
  | some v =>
    refine ⟨hr.1, hr.2.trans ?_⟩
    congr 1
    refine Finset.sum_congr rfl fun b _ => ?_
    rw [gaussLL, Finset.mul_sum]
    exact Finset.sum_congr rfl fun i _ => by push_cast; ring

theorem binaryForward_scalar (h : N.Ok st) (hh : st.hooks N.mod.id = []) (hB : 0 < B) (hx : IsBatch x B s n X) (ht : IsBatch t B s' k T)
    {cfg : Cfg} (hagg : cfg.agg = .sum ∨ cfg.agg = .average) :
    ReturnsScalar (binaryForward cfg N.mod x (some t)) st (aggFactor cfg.agg B * ∑ b, binLL (N.out st (X b)) (T b)) := by
  refine returnsScalar (Run.bindLift (P := fun r => r = B) ⟨_, hx.dim0, rfl⟩ ?_)
  rintro _ rfl
  refine (h.call_run hh hB hx).bind fun val st1 c => ?_
  refine Run.bindLift (checkTarget_batch c.out ht) ?_
  rintro _ rfl
  refine Run.bindLift (zipWithB_batch _ c.out (c.out.map _)) fun c1 hc1 => ?_
  refine Run.bindLift (zipWithB_batch _ ht hc1) fun a1 ha1 => ?_
  refine Run.bindLift (zipWithB_batch _ (ht.map _) ((c.out.map _).map _)) fun a0 ha0 => ?_
  refine Run.bindLift (zipWithB_batch _ ha1 ha0) fun l hl => ?_
  refine Run.bindLift (reshapeInfer_batch hl h.g.hk hB) fun l hl => ?_
  refine Run.bindLift (sum1_vec hl) fun l hl => ?_
  refine Run.lift (aggForward_vec hagg hl) fun r hr => ?_
  cases r with
  | none => exact hr.elim
  | some v =>
    refine ⟨hr.1, hr.2.trans ?_⟩
    congr 1
    refine Finset.sum_congr rfl fun b _ => ?_
    rw [binLL]
    refine Finset.sum_congr rfl fun i _ => ?_
    rw [log_sigma, log_one_sub_sigma]
    rfl

theorem bernoulliForward_scalar {c : Nat} (h : N.Ok st) (hh : st.hooks N.mod.id = []) (hB : 0 < B) (hx : IsBatch x B s n X) (ht : IsBatch t B s' k T)
    (hc : s'.getLast? = some c) {cfg : Cfg} (hagg : cfg.agg = .sum ∨ cfg.agg = .average) :
    ReturnsScalar (bernoulliForward cfg N.mod x (some t)) st (aggFactor cfg.agg B * ∑ b, classLL c (N.out st (X b)) (T b)) := by
  refine returnsScalar (Run.bindLift (P := fun r => r = B) ⟨_, hx.dim0, rfl⟩ ?_)
  rintro _ rfl
  refine (h.call_run hh hB hx).bind fun val st1 cl => ?_
  refine Run.bindLift (checkTarget_batch cl.out ht) ?_
  rintro _ rfl
  refine Run.bindLift (lastSum_batch _ cl.out h.g.hk hc h.g.kpos) fun u hu => ?_
  refine Run.bindLift (zipWithB_batch _ cl.out (hu.map _)) fun c1 hc1 => ?_
  refine Run.bindLift (zipWithB_batch _ ht hc1) fun l hl => ?_
  refine Run.bindLift (reshapeInfer_batch hl h.g.hk hB) fun l hl => ?_
  refine Run.bindLift (sum1_vec hl) fun l hl => ?_
  refine Run.lift (aggForward_vec hagg hl) fun r hr => ?_
  cases r with
  | none => exact hr.elim
  | some v =>
    refine ⟨hr.1, hr.2.trans ?_⟩
    congr 1
    refine Finset.sum_congr rfl fun b _ => ?_
    rw [classLL]
    refine Finset.sum_congr rfl fun i _ => ?_
    rw [log_softmax]
    rfl

/-! gradients -/

/-- what a gradient method returns when the residuals of the samples are `U b` -/
def GradOf (grad : Wrt → Prog ℝ (PyVal ℝ)) (N : Net s n s' k p) (st : Store ℝ) (X : Fin B → Fin n → ℝ) (agg : AggArg)
    (U : Fin B → Fin k → ℝ) : Prop :=
  (∃ g, Returns (grad .input) st (.tensor g) ∧ IsVec1 g n fun i => aggFactor agg B * ∑ b, (U b ᵥ* N.J st (X b)) i) ∧
  (0 < p → ∃ g, Returns (grad .weight) st (.tensor g) ∧ IsVec1 g p fun i => aggFactor agg B * ∑ b, (U b ᵥ* N.JW st (X b)) i) ∧
  (p = 0 → (grad .weight st).1 = .error .type)

theorem Res.lift_bind_ok {β γ : Type} {p : Res β} {b : β} (h : p = .ok b) (f : β → Prog ℝ γ) : ((liftM p : Prog ℝ β) >>= f) = f b := by
  subst h; rfl

theorem gaussianGradient_run (h : N.Ok st) (hh : st.hooks N.mod.id = []) (hB : 0 < B) (hx : IsBatch x B s n X) (ht : IsBatch t B s' k T)
    {cfg : Cfg} (hagg : cfg.agg = .sum ∨ cfg.agg = .average) :
    GradOf (gaussianGradient cfg N.mod x (some t)) N st X cfg.agg fun b i => T b i - N.out st (X b) i := by
  obtain ⟨val, st1, h1, c⟩ := h.call_run hh hB hx
  obtain ⟨t', h2, e2⟩ := checkTarget_batch c.out ht
  rw [e2] at h2
  obtain ⟨d, h3, hd⟩ := zipWithB_batch (· - ·) ht c.out
  obtain ⟨r, h4, hr⟩ := reshapeInfer_batch hd h.g.hk hB
  have e : ∀ wrt, gaussianGradient cfg N.mod x (some t) wrt st =
      (do let g ← N.mod.vjp x (some val) r wrt; (aggValue cfg.agg (PyVal.ofOption g) : Res _) : Prog ℝ _) st1 := fun wrt => by
    rw [gaussianGradient, Res.lift_bind_ok hx.dim0, Prog.bind_ok h1, Res.lift_bind_ok h2, Tensor.sub, Res.lift_bind_ok h3, Res.lift_bind_ok h4]
  have := c.vjp_agg hB hx hagg hr
  refine ⟨?_, fun hp => ?_, fun hp => ?_⟩
  · obtain ⟨g, hg, hG⟩ := runTensor this.1
    exact ⟨g, by rw [Returns, e]; exact hg, hG⟩
  · obtain ⟨g, hg, hG⟩ := runTensor (this.2.1 hp)
    exact ⟨g, by rw [Returns, e]; exact hg, hG⟩
  · rw [e]; exact this.2.2 hp

theorem binaryGradient_run (h : N.Ok st) (hh : st.hooks N.mod.id = []) (hB : 0 < B) (hx : IsBatch x B s n X) (ht : IsBatch t B s' k T)
    {cfg : Cfg} (hagg : cfg.agg = .sum ∨ cfg.agg = .average) :
    GradOf (binaryGradient cfg N.mod x (some t)) N st X cfg.agg fun b i => T b i - sigma (N.out st (X b) i) := by
  obtain ⟨val, st1, h1, c⟩ := h.call_run hh hB hx
  obtain ⟨t', h2, e2⟩ := checkTarget_batch c.out ht
  rw [e2] at h2
  obtain ⟨d, h3, hd⟩ := zipWithB_batch (· - ·) ht (c.out.map fun v => Trans.exp v / (1 + Trans.exp v))
  obtain ⟨r, h4, hr⟩ := reshapeInfer_batch hd h.g.hk hB
  have e : ∀ wrt, binaryGradient cfg N.mod x (some t) wrt st =
      (do let g ← N.mod.vjp x (some val) r wrt; (aggValue cfg.agg (PyVal.ofOption g) : Res _) : Prog ℝ _) st1 := fun wrt => by
    rw [binaryGradient, Res.lift_bind_ok hx.dim0, Prog.bind_ok h1, Res.lift_bind_ok h2, Tensor.sub, binaryProb, Res.lift_bind_ok h3, Res.lift_bind_ok h4]
  have := c.vjp_agg hB hx hagg hr
  refine ⟨?_, fun hp => ?_, fun hp => ?_⟩
  · obtain ⟨g, hg, hG⟩ := runTensor this.1
    exact ⟨g, by rw [Returns, e]; exact hg, hG⟩
  · obtain ⟨g, hg, hG⟩ := runTensor (this.2.1 hp)
    exact ⟨g, by rw [Returns, e]; exact hg, hG⟩
  · rw [e]; exact this.2.2 hp

theorem bernoulliGradient_run {c : Nat} (h : N.Ok st) (hh : st.hooks N.mod.id = []) (hB : 0 < B) (hx : IsBatch x B s n X) (ht : IsBatch t B s' k T)
    (hc : s'.getLast? = some c) {cfg : Cfg} (hagg : cfg.agg = .sum ∨ cfg.agg = .average) :
    GradOf (bernoulliGradient cfg N.mod x (some t)) N st X cfg.agg fun b i => T b i - softmax c (N.out st (X b)) i := by
  obtain ⟨val, st1, h1, cl⟩ := h.call_run hh hB hx
  obtain ⟨t', h2, e2⟩ := checkTarget_batch cl.out ht
  rw [e2] at h2
  obtain ⟨pr, h3', hpr⟩ := bernoulliProb_batch cl.out h.g.hk hc h.g.kpos
  obtain ⟨d, h3, hd⟩ := zipWithB_batch (· - ·) ht hpr
  obtain ⟨r, h4, hr⟩ := reshapeInfer_batch hd h.g.hk hB
  have e : ∀ wrt, bernoulliGradient cfg N.mod x (some t) wrt st =
      (do let g ← N.mod.vjp x (some val) r wrt; (aggValue cfg.agg (PyVal.ofOption g) : Res _) : Prog ℝ _) st1 := fun wrt => by
    rw [bernoulliGradient, Res.lift_bind_ok hx.dim0, Prog.bind_ok h1, Res.lift_bind_ok h2, Res.lift_bind_ok h3', Tensor.sub, Res.lift_bind_ok h3, Res.lift_bind_ok h4]
  have := cl.vjp_agg hB hx hagg hr
  refine ⟨?_, fun hp => ?_, fun hp => ?_⟩
  · obtain ⟨g, hg, hG⟩ := runTensor this.1
    exact ⟨g, by rw [Returns, e]; exact hg, hG⟩
  · obtain ⟨g, hg, hG⟩ := runTensor (this.2.1 hp)
    exact ⟨g, by rw [Returns, e]; exact hg, hG⟩
  · rw [e]; exact this.2.2 hp

/-! Gauss-Newton matrices -/

/-- what a `ggn` method returns when the Hessians of the samples are `H b` (exact propagation) -/
structure GgnOf (ggn : Wrt → Prog ℝ (PyVal ℝ)) (N : Net s n s' k p) (st : Store ℝ) (X : Fin B → Fin n → ℝ) (agg : AggArg) (shape : ShapeArg)
    (H : Fin B → Matrix (Fin k) (Fin k) ℝ) : Prop where
  inputDiag : shape = .diag → ∃ g, Returns (ggn .input) st (.tensor g) ∧
    IsVec1 g n fun i => aggFactor agg B * ∑ b, ((N.J st (X b))ᵀ * H b * N.J st (X b)) i i
  inputFull : shape = .full → ∃ g, Returns (ggn .input) st (.tensor g) ∧
    IsMat1 g n n fun i j => aggFactor agg B * ∑ b, ((N.J st (X b))ᵀ * H b * N.J st (X b)) i j
  weightDiag : shape = .diag → 0 < p → ∃ g, Returns (ggn .weight) st (.tensor g) ∧
    IsVec1 g p fun i => aggFactor agg B * ∑ b, ((N.JW st (X b))ᵀ * H b * N.JW st (X b)) i i
  weightFull : shape = .full → 0 < p → ¬ N.Container → ∃ g, Returns (ggn .weight) st (.tensor g) ∧
    IsMat1 g p p fun i j => aggFactor agg B * ∑ b, ((N.JW st (X b))ᵀ * H b * N.JW st (X b)) i j
  weightList : shape = .full → N.Container → (ggn .weight st).1 = .error .type
  weightNone : shape = .diag ∨ shape = .full → p = 0 → (ggn .weight st).1 = .error .type

/-- a full weight metric of a leaf is a tensor, of a container a list -/
theorem Net.Blocks.leaf (hN : ¬ N.Container) {v : PyVal ℝ} {Z : Fin B → Matrix (Fin p) (Fin p) ℝ} (hv : N.Blocks v B Z) :
    ∃ t, v = .tensor t ∧ IsMat t B p p Z := by
  cases N <;> first | exact hv | exact (hN trivial).elim

theorem Net.Blocks.container (hN : N.Container) {v : PyVal ℝ} {Z : Fin B → Matrix (Fin p) (Fin p) ℝ} (hv : N.Blocks v B Z) :
    ∃ vs, v = .list vs := by
  cases N with
  | seq id c => obtain ⟨vs, h, _⟩ := hv; exact ⟨vs, h⟩
  | skip id fid c => obtain ⟨vs, h, _⟩ := hv; exact ⟨vs, h⟩
  | _ => exact hN.elim

theorem aggValue_bad {agg : AggArg} (hagg : agg = .sum ∨ agg = .average) {v : PyVal ℝ} (hv : ∀ t, v ≠ .tensor t) :
    aggValue agg v = .error .type := by
  cases v with
  | tensor t => exact (hv t rfl).elim
  | none => rcases hagg with rfl | rfl <;> rfl
  | list l => rcases hagg with rfl | rfl <;> rfl

theorem AtVal.ggn_agg {val A : Tensor ℝ} {H : Fin B → Matrix (Fin k) (Fin k) ℝ} {st1 : Store ℝ} (c : AtVal N st X val st1) (hB : 0 < B)
    (hx : IsBatch x B s n X) {agg : AggArg} (hagg : agg = .sum ∨ agg = .average) (shape : ShapeArg) (fd : Bool) (hA : MetricArg fd A B k H)
    {ggn : Wrt → Prog ℝ (PyVal ℝ)} (e : ∀ wrt, ggn wrt st = (do
      let r ← N.mod.jTmjp x (some val) (some A) wrt fd (shape = .diag) false
      (aggValue agg r : Res _) : Prog ℝ _) st1) : GgnOf ggn N st X agg shape H := by
  have eJ : N.mdl.J st1 X = fun b => N.J st (X b) := by rw [Net.mdl_J]; funext b; rw [Net.J, Net.J, c.w]
  have eW : N.mdl.JW st1 X = fun b => N.JW st (X b) := by rw [Net.mdl_JW]; funext b; rw [Net.JW, Net.JW, c.w]
  have hI := fun td => (c.ok.g.jTI fd td c.ok.w hB hx hA).1 val c.vok c.cache
  have hWd := (c.ok.g.jTWd fd c.ok.w hB hx hA).1 val c.vok c.cache
  have hWf := (c.ok.g.jTWf fd c.ok.w hB hx hA).1 val c.vok c.cache
  rw [eJ] at hI
  rw [eW] at hWd hWf
  rw [Net.mdl_m] at hI hWd hWf
  refine ⟨?_, ?_, ?_, ?_, ?_, ?_⟩
  · rintro rfl
    refine runTensor ?_
    rw [Run, e .input, decide_eq_true rfl]
    refine (hI true).bind fun r s1 ⟨hr, _⟩ => ?_
    obtain ⟨t, rfl, ht⟩ := isTensor_iff.1 hr
    exact Run.lift (aggValue_vec hagg ht) fun _ h => h
  · rintro rfl
    refine runTensor ?_
    rw [Run, e .input, decide_eq_false (by simp)]
    refine (hI false).bind fun r s1 ⟨hr, _⟩ => ?_
    obtain ⟨t, rfl, ht⟩ := isTensor_iff.1 hr
    exact Run.lift (aggValue_mat hagg ht) fun _ h => h
  · rintro rfl hp
    refine runTensor ?_
    rw [Run, e .weight, decide_eq_true rfl]
    refine hWd.bind fun r s1 ⟨hr, _⟩ => ?_
    rw [OptV, if_neg (by omega)] at hr
    obtain ⟨t, rfl, ht⟩ := isTensor_iff.1 hr
    exact Run.lift (aggValue_vec hagg ht) fun _ h => h
  · rintro rfl hp hl
    refine runTensor ?_
    rw [Run, e .weight, decide_eq_false (by simp)]
    refine hWf.bind fun r s1 ⟨hr, _⟩ => ?_
    rw [OptV, if_neg (by omega), N.mdl_blocks] at hr
    obtain ⟨t, rfl, ht⟩ := hr.leaf hl
    exact Run.lift (aggValue_mat hagg ht) fun _ h => h
  · rintro rfl hl
    rw [e .weight, decide_eq_false (by simp)]
    obtain ⟨r, s1, h1, h2, rfl⟩ := hWf
    rw [Prog.bind_ok h1]
    have : aggValue agg r = .error .type := by
      refine aggValue_bad hagg ?_
      rw [OptV] at h2
      split_ifs at h2 with hp
      · simp [h2]
      · rw [N.mdl_blocks] at h2
        obtain ⟨vs, rfl⟩ := h2.container hl
        simp
    rw [this]; rfl
  · intro hs hp
    have hany : ∃ r s1, N.mod.jTmjp x (some val) (some A) .weight fd (shape = .diag) false st1 = (.ok r, s1) ∧ r = .none := by
      rcases hs with rfl | rfl
      · obtain ⟨r, s1, h1, h2, _⟩ := hWd
        rw [OptV, if_pos hp] at h2
        exact ⟨r, s1, h1, h2⟩
      · obtain ⟨r, s1, h1, h2, _⟩ := hWf
        rw [OptV, if_pos hp] at h2
        exact ⟨r, s1, h1, h2⟩
    obtain ⟨r, s1, h1, rfl⟩ := hany
    rw [e .weight, Prog.bind_ok h1, aggValue_bad hagg (by simp)]
    rfl

theorem gaussianGgn_run (h : N.Ok st) (hh : st.hooks N.mod.id = []) (hB : 0 < B) (hx : IsBatch x B s n X)
    {cfg : Cfg} (hagg : cfg.agg = .sum ∨ cfg.agg = .average) (hbp : cfg.backprop = .exact) :
    GgnOf (gaussianGgn cfg N.mod x) N st X cfg.agg cfg.shape fun _ => diagonal fun _ => -1 := by
  obtain ⟨val, st1, h1, c⟩ := h.call_run hh hB hx
  obtain ⟨r, h4, hr⟩ := reshapeInfer_batch ((isBatch_onesLike c.out).map fun a => -a) h.g.hk hB
  refine c.ggn_agg hB hx hagg cfg.shape true (A := r) ⟨_, hr, fun _ => rfl⟩ fun wrt => ?_
  rw [gaussianGgn, Res.lift_bind_ok hx.dim0, Prog.bind_ok h1, Res.lift_bind_ok h4]
  rw [decide_eq_false (p := cfg.backprop = .approx) (by rw [hbp]; simp)]

theorem binaryGgn_run (h : N.Ok st) (hh : st.hooks N.mod.id = []) (hB : 0 < B) (hx : IsBatch x B s n X)
    {cfg : Cfg} (hagg : cfg.agg = .sum ∨ cfg.agg = .average) (hbp : cfg.backprop = .exact) :
    GgnOf (binaryGgn cfg N.mod x) N st X cfg.agg cfg.shape fun b => diagonal fun i =>
      sigma (N.out st (X b) i) * sigma (N.out st (X b) i) - sigma (N.out st (X b) i) := by
  obtain ⟨val, st1, h1, c⟩ := h.call_run hh hB hx
  obtain ⟨r, h4, hr⟩ := reshapeInfer_batch ((c.out.map fun v => Trans.exp v / (1 + Trans.exp v)).map fun p => p * p - p) h.g.hk hB
  refine c.ggn_agg hB hx hagg cfg.shape true (A := r) ⟨_, hr, fun _ => rfl⟩ fun wrt => ?_
  rw [binaryGgn, Res.lift_bind_ok hx.dim0, Prog.bind_ok h1, binaryProb, Res.lift_bind_ok h4]
  rw [decide_eq_false (p := cfg.backprop = .approx) (by rw [hbp]; simp)]

end

section
variable {s : List Nat} {n c p : Nat} {N : Net s n [c] c p} {st : Store ℝ}
variable {B : Nat} {X : Fin B → Fin n → ℝ} {x : Tensor ℝ}

theorem bernoulliHessian_mat {val : Tensor ℝ} {Y : Fin B → Fin c → ℝ} (hB : 0 < B) (hc : 0 < c) (hv : IsBatch val B [c] c Y) :
    Ret (bernoulliHessian B val) fun r => IsMat r B c c fun b => classH c (Y b) := by
  have hn : val.numel0 = .ok c := by
    simp only [numel0, hv.1]
    cases B with
    | zero => omega
    | succ B => simp
  simp only [bernoulliHessian, hv.1, List.getLast?_cons_cons, List.getLast?_singleton, pure_bind, hn, Res.bind_ok, if_neg hc.ne', List.length_cons,
    List.length_nil, Nat.zero_add, Nat.add_sub_cancel, List.take_succ_cons, List.take_zero]
  refine (bernoulliProb_batch (c := c) hv (by simp) (by simp) hc).bind fun pr hpr => ?_
  have hpv := isVec_iff_batch.2 hpr
  refine (diagEmbed_vec hpv).bind fun d hd => ?_
  have ho : Ret (einsum [['a'] ++ ['i'], ['a'] ++ ['j']] (['a'] ++ ['i', 'j']) [pr, pr]) fun r =>
      IsMat r B c c fun b i j => softmax c (Y b) i * softmax c (Y b) j := by
    ein [('a', B), ('i', c), ('j', c)] [hpv.1, hpv.2]
  refine ho.bind fun o ho => ?_
  have hsub : Ret (o.sub d) fun r => IsMat r B c c fun b => classH c (Y b) := by
    simp only [Tensor.sub, zipWithB, ho.1, hd.1, if_true]
    refine Ret.ok ⟨rfl, fun b i j => ?_⟩
    rw [get3 (by rfl)]
    have h1 := ho.data b i j
    have h2 := hd.data b i j
    simp only [h1, h2, classH, classRow_univ, Finset.mem_univ, if_true, diagonal_apply]
    congr 1
    by_cases hij : i = j
    · subst hij; simp
    · rw [if_neg hij, if_neg fun h => hij h.symm]
  refine hsub.bind fun r hr => ?_
  simp only [if_true]
  refine ⟨⟨[B, c, c], r.data⟩, by simp [Tensor.reshape, Tensor.numel, hr.1], rfl, fun b i j => ?_⟩
  rw [← hr.2 b i j, get3 (by rfl), get3 hr.1]

theorem bernoulliGgn_run (h : N.Ok st) (hh : st.hooks N.mod.id = []) (hB : 0 < B) (hx : IsBatch x B s n X)
    {cfg : Cfg} (hagg : cfg.agg = .sum ∨ cfg.agg = .average) (hbp : cfg.backprop = .exact) :
    GgnOf (bernoulliGgn cfg N.mod x) N st X cfg.agg cfg.shape fun b => classH c (N.out st (X b)) := by
  obtain ⟨val, st1, h1, cl⟩ := h.call_run hh hB hx
  obtain ⟨r, h4, hr⟩ := bernoulliHessian_mat hB h.g.kpos cl.out
  refine cl.ggn_agg hB hx hagg cfg.shape false (A := r) hr fun wrt => ?_
  rw [bernoulliGgn, Res.lift_bind_ok hx.dim0, Prog.bind_ok h1, Res.lift_bind_ok h4]
  rw [decide_eq_false (p := cfg.backprop = .approx) (by rw [hbp]; simp)]

end

/-- outputs with several class vectors: the method fails -/
theorem bernoulliHessian_bad {b c n : Nat} {val : Tensor ℝ} (hl : val.shape.getLast? = some c) (hn : val.numel0 = .ok n) (hne : n ≠ c) :
    ∃ e, bernoulliHessian b val = .error e := by
  simp only [bernoulliHessian, hl, hn, pure_bind, Res.bind_ok, if_neg hne]
  by_cases hc : c = 0
  · exact ⟨_, if_pos hc⟩
  · rw [if_neg hc]
    cases bernoulliProb val with
    | error e => exact ⟨e, rfl⟩
    | ok p =>
      simp only [Res.bind_ok]
      cases p.diagEmbed with
      | error e => exact ⟨e, rfl⟩
      | ok d =>
        simp only [Res.bind_ok]
        cases einsum _ _ [p, p] with
        | error e => exact ⟨e, rfl⟩
        | ok o =>
          simp only [Res.bind_ok]
          cases o.sub d with
          | error e => exact ⟨e, rfl⟩
          | ok h => exact ⟨_, rfl⟩
end NNJ
