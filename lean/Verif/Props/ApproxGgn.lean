import Verif.Proofs.LogLikApprox
import Verif.Props.Aggregate
import Verif.Props.DiagBackprop

/-!
# C45: `ggn` of a likelihood with `metric_backprop="approx"`

`N.sem.Q` and `N.sem.QW` are, as in C11, products along the network of the entrywise squares of the matrices `jacobian`
returns for the single layers.
-/

namespace NNJ
namespace Props
open Matrix LogLik

variable {s s' : List Nat} {n k p : Nat} {N : Net s n s' k p} {st : Store ℝ}
variable {B : Nat} {X : Fin B → Fin n → ℝ} {x : Tensor ℝ} {cfg : Cfg}

theorem ggnApprox_of {ggn : Wrt → Prog ℝ (PyVal ℝ)} {agg : AggArg} {d : Fin B → Fin k → ℝ} {hess : Fin B → Matrix (Fin k) (Fin k) ℝ → Prop}
    (hg : GgnDb ggn N st X agg d) (hd : ∀ b i, d b i ≤ 0) (hh : ∀ b, hess b (diagonal (d b))) :
    GgnApprox (ggn .input) st B k n agg (fun b => N.sem.Q (N.w st) (X b)) hess ∧
    (0 < p → GgnApprox (ggn .weight) st B k p agg (fun b => N.sem.QW (N.w st) (X b)) hess) := by
  have neg : ∀ {m : Nat} {Q : Matrix (Fin k) (Fin m) ℝ}, NonnegM Q → ∀ b i, (d b ᵥ* Q) i ≤ 0 := fun hQ b i => by
    have := hQ.vecMul (d := fun i => - d b i) (fun i => by linarith [hd b i]) i
    rw [show (fun i => - d b i) = - d b from rfl, neg_vecMul] at this
    simpa using this
  constructor
  · obtain ⟨g, hr, hG⟩ := hg.1
    exact ⟨g, d, _, hr, hG, hh, fun _ => rfl, fun i => mul_nonpos_of_nonneg_of_nonpos (aggFactor_nonneg _ _)
      (Finset.sum_nonpos fun b _ => neg (N.Q_nonneg _ _).1 b i)⟩
  · intro hp
    obtain ⟨g, hr, hG⟩ := hg.2.1 hp
    exact ⟨g, d, _, hr, hG, hh, fun _ => rfl, fun i => mul_nonpos_of_nonneg_of_nonpos (aggFactor_nonneg _ _)
      (Finset.sum_nonpos fun b _ => neg (N.Q_nonneg _ _).2 b i)⟩

/-- C45: `LogGaussian.ggn` with `metric_shape="diag"`, `metric_backprop="approx"`. -/
theorem C45_gaussian (h : N.Ok st) (hh : st.hooks N.mod.id = []) (hB : 0 < B) (hx : IsBatch x B s n X)
    (hagg : cfg.agg = .sum ∨ cfg.agg = .average) (hsh : cfg.shape = .diag) (hbp : cfg.backprop = .approx) :
    GgnApprox (gaussianGgn cfg N.mod x .input) st B k n cfg.agg (fun b => N.sem.Q (N.w st) (X b))
      (fun b H => ∀ t, HasHess (fun y => gaussLL y t) H (forwardMap N.mod st s (X b))) ∧
    (0 < p → GgnApprox (gaussianGgn cfg N.mod x .weight) st B k p cfg.agg (fun b => N.sem.QW (N.w st) (X b))
      (fun b H => ∀ t, HasHess (fun y => gaussLL y t) H (forwardMap N.mod st s (X b)))) :=
  ggnApprox_of (gaussianGgn_db h hh hB hx hagg hsh hbp) (fun _ _ => by norm_num) fun _ _ => gaussLL_hess _ _

/-- C45: `LogBinaryBernoulli.ggn` with `metric_shape="diag"`, `metric_backprop="approx"`. -/
theorem C45_binary (h : N.Ok st) (hh : st.hooks N.mod.id = []) (hB : 0 < B) (hx : IsBatch x B s n X)
    (hagg : cfg.agg = .sum ∨ cfg.agg = .average) (hsh : cfg.shape = .diag) (hbp : cfg.backprop = .approx) :
    GgnApprox (binaryGgn cfg N.mod x .input) st B k n cfg.agg (fun b => N.sem.Q (N.w st) (X b))
      (fun b H => ∀ t, HasHess (fun y => binLL y t) H (forwardMap N.mod st s (X b))) ∧
    (0 < p → GgnApprox (binaryGgn cfg N.mod x .weight) st B k p cfg.agg (fun b => N.sem.QW (N.w st) (X b))
      (fun b H => ∀ t, HasHess (fun y => binLL y t) H (forwardMap N.mod st s (X b)))) :=
  ggnApprox_of (binaryGgn_db h hh hB hx hagg hsh hbp) (fun _ _ => sigma_sq _) fun b t => by rw [← out_eq h]; exact binLL_hess _ _

/-- C45: a model without parameters has no weight metric; `torch.sum(None)` raises TypeError. -/
theorem C45_no_parameters (h : N.Ok st) (hh : st.hooks N.mod.id = []) (hB : 0 < B) (hx : IsBatch x B s n X)
    (hagg : cfg.agg = .sum ∨ cfg.agg = .average) (hsh : cfg.shape = .diag) (hbp : cfg.backprop = .approx) (hp : p = 0) :
    (gaussianGgn cfg N.mod x .weight st).1 = .error .type ∧ (binaryGgn cfg N.mod x .weight st).1 = .error .type :=
  ⟨(gaussianGgn_db h hh hB hx hagg hsh hbp).2.2 hp, (binaryGgn_db h hh hB hx hagg hsh hbp).2.2 hp⟩

theorem teq_vec1 {t u : Tensor ℝ} {m : Nat} {f : Fin m → ℝ} (ht : IsVec1 t m f) (hu : IsVec1 u m f) : TEq t u :=
  ⟨by rw [ht.1, hu.1], fun i hi => by
    have hi : i < m := by simpa [ht.1, size] using hi
    exact (ht.2 ⟨i, hi⟩).trans (hu.2 ⟨i, hi⟩).symm⟩

theorem ggn_same {ga ge : Wrt → Prog ℝ (PyVal ℝ)} {agg : AggArg} {d : Fin B → Fin k → ℝ} (ha : GgnDb ga N st X agg d)
    (he : GgnOf ge N st X agg .diag fun b => diagonal (d b)) :
    ((∀ b, N.Exact (N.w st) (X b)) → ∃ t u, Returns (ga .input) st (.tensor t) ∧ Returns (ge .input) st (.tensor u) ∧ TEq t u) ∧
    (0 < p → (∀ b, N.ExactW (N.w st) (X b)) → ∃ t u, Returns (ga .weight) st (.tensor t) ∧ Returns (ge .weight) st (.tensor u) ∧ TEq t u) := by
  constructor
  · intro hE
    obtain ⟨t, ht, hT⟩ := ha.1
    obtain ⟨u, hu, hU⟩ := he.inputDiag rfl
    refine ⟨t, u, ht, hu, teq_vec1 hT ⟨hU.1, fun i => (hU.2 i).trans ?_⟩⟩
    refine congrArg (aggFactor agg B * ·) (Finset.sum_congr rfl fun b _ => ?_)
    refine (congrFun (diag_conj (N.J st (X b)) (d b)) i).trans ?_
    rw [Net.Q, N.Q_exact _ _ (hE b)]; rfl
  · intro hp hE
    obtain ⟨t, ht, hT⟩ := ha.2.1 hp
    obtain ⟨u, hu, hU⟩ := he.weightDiag rfl hp
    refine ⟨t, u, ht, hu, teq_vec1 hT ⟨hU.1, fun i => (hU.2 i).trans ?_⟩⟩
    refine congrArg (aggFactor agg B * ·) (Finset.sum_congr rfl fun b _ => ?_)
    refine (congrFun (diag_conj (N.JW st (X b)) (d b)) i).trans ?_
    rw [Net.QW, N.QW_exact _ _ (hE b)]; rfl

/-- C45: "approx" and "exact" agree wherever C11 gives exactness. -/
theorem C45_exact (h : N.Ok st) (hh : st.hooks N.mod.id = []) (hB : 0 < B) (hx : IsBatch x B s n X) (agg : AggArg)
    (hagg : agg = .sum ∨ agg = .average) :
    ((∀ b, N.Exact (N.w st) (X b)) →
      (∃ t u, Returns (gaussianGgn ⟨agg, .diag, .approx⟩ N.mod x .input) st (.tensor t) ∧
        Returns (gaussianGgn ⟨agg, .diag, .exact⟩ N.mod x .input) st (.tensor u) ∧ TEq t u) ∧
      (∃ t u, Returns (binaryGgn ⟨agg, .diag, .approx⟩ N.mod x .input) st (.tensor t) ∧
        Returns (binaryGgn ⟨agg, .diag, .exact⟩ N.mod x .input) st (.tensor u) ∧ TEq t u)) ∧
    (0 < p → (∀ b, N.ExactW (N.w st) (X b)) →
      (∃ t u, Returns (gaussianGgn ⟨agg, .diag, .approx⟩ N.mod x .weight) st (.tensor t) ∧
        Returns (gaussianGgn ⟨agg, .diag, .exact⟩ N.mod x .weight) st (.tensor u) ∧ TEq t u) ∧
      (∃ t u, Returns (binaryGgn ⟨agg, .diag, .approx⟩ N.mod x .weight) st (.tensor t) ∧
        Returns (binaryGgn ⟨agg, .diag, .exact⟩ N.mod x .weight) st (.tensor u) ∧ TEq t u)) := by
  have g := ggn_same (gaussianGgn_db (cfg := ⟨agg, .diag, .approx⟩) h hh hB hx hagg rfl rfl) (gaussianGgn_run (cfg := ⟨agg, .diag, .exact⟩) h hh hB hx hagg rfl)
  have b := ggn_same (binaryGgn_db (cfg := ⟨agg, .diag, .approx⟩) h hh hB hx hagg rfl rfl) (binaryGgn_run (cfg := ⟨agg, .diag, .exact⟩) h hh hB hx hagg rfl)
  exact ⟨fun hE => ⟨g.1 hE, b.1 hE⟩, fun hp hE => ⟨g.2 hp hE, b.2 hp hE⟩⟩

/-- C45: on a Sequential or SkipConnection "approx" with `metric_shape="full"` raises AssertionError, whatever `aggregate_batch` and
`wrt` are. -/
theorem C45_full_raises (h : N.Ok st) (hh : st.hooks N.mod.id = []) (hB : 0 < B) (hx : IsBatch x B s n X) (hN : N.Container)
    (agg : AggArg) (wrt : Wrt) :
    (gaussianGgn ⟨agg, .full, .approx⟩ N.mod x wrt st).1 = .error .assertion ∧
    (binaryGgn ⟨agg, .full, .approx⟩ N.mod x wrt st).1 = .error .assertion :=
  ⟨gaussianGgn_refuse h hh hB hx hN rfl rfl wrt, binaryGgn_refuse h hh hB hx hN rfl rfl wrt⟩

/-- C45: on a Sequential or SkipConnection "approx" makes `LogBernoulli.ggn` raise AssertionError for both metric shapes. -/
theorem C45_bernoulli_raises {c : Nat} {N : Net s n [c] c p} (h : N.Ok st) (hh : st.hooks N.mod.id = []) (hB : 0 < B) (hx : IsBatch x B s n X)
    (hN : N.Container) (agg : AggArg) (shape : ShapeArg) (wrt : Wrt) :
    (bernoulliGgn ⟨agg, shape, .approx⟩ N.mod x wrt st).1 = .error .assertion :=
  bernoulliGgn_refuse h hh hB hx hN rfl wrt

/-- C45: for a model that is a single layer other than L2Norm, "approx" and "exact" are the same computation, for any input and
state. -/
theorem C45_layer (hl : N.Leaf) (hn : ¬ N.IsL2) (agg : AggArg) (shape : ShapeArg) (x : Tensor ℝ) (wrt : Wrt) :
    gaussianGgn ⟨agg, shape, .approx⟩ N.mod x wrt = gaussianGgn ⟨agg, shape, .exact⟩ N.mod x wrt ∧
    binaryGgn ⟨agg, shape, .approx⟩ N.mod x wrt = binaryGgn ⟨agg, shape, .exact⟩ N.mod x wrt ∧
    bernoulliGgn ⟨agg, shape, .approx⟩ N.mod x wrt = bernoulliGgn ⟨agg, shape, .exact⟩ N.mod x wrt := by
  have ea : (⟨agg, shape, .approx⟩ : Cfg).agg = (⟨agg, shape, .exact⟩ : Cfg).agg := rfl
  refine ⟨gaussianGgn_congr ea rfl fun v A => ?_, binaryGgn_congr ea rfl fun v A => ?_, bernoulliGgn_congr ea rfl fun v A => ?_⟩
  all_goals rw [hl.ignores hn _ _ _ _ _ (decide _)]; simp

/-- C45: for a model that is an L2Norm layer, "approx" always yields the diagonal, also with `metric_shape="full"`; and
`LogBernoulli.ggn` raises. -/
theorem C45_l2norm (hn : N.IsL2) (agg : AggArg) (shape : ShapeArg) (x : Tensor ℝ) (wrt : Wrt) :
    gaussianGgn ⟨agg, shape, .approx⟩ N.mod x wrt = gaussianGgn ⟨agg, .diag, .exact⟩ N.mod x wrt ∧
    binaryGgn ⟨agg, shape, .approx⟩ N.mod x wrt = binaryGgn ⟨agg, .diag, .exact⟩ N.mod x wrt := by
  have ea : (⟨agg, shape, .approx⟩ : Cfg).agg = (⟨agg, .diag, .exact⟩ : Cfg).agg := rfl
  refine ⟨gaussianGgn_congr ea rfl fun v A => ?_, binaryGgn_congr ea rfl fun v A => ?_⟩
  all_goals simp only [decide_true, reduceCtorEq, decide_false]; exact hn.sets _ _ _ _ _

theorem C45_l2norm_bernoulli {c : Nat} {N : Net s n [c] c p} (hn : N.IsL2) (h : N.Ok st) (hh : st.hooks N.mod.id = []) (hB : 0 < B)
    (hx : IsBatch x B s n X) (agg : AggArg) (shape : ShapeArg) : ∃ e, (bernoulliGgn ⟨agg, shape, .approx⟩ N.mod x .input st).1 = .error e := by
  obtain ⟨val, st1, h1, cl⟩ := h.call_run hh hB hx
  obtain ⟨r, h4, hr⟩ := bernoulliHessian_mat hB h.g.kpos cl.out
  obtain ⟨e, s1, he⟩ := hn.rank (x := x) hr.1 (some val) false (decide (shape = .diag)) st1
  refine ⟨e, ?_⟩
  rw [bernoulliGgn, Res.lift_bind_ok hx.dim0, Prog.bind_ok h1, Res.lift_bind_ok h4]
  simp only [decide_true]
  rw [Prog.bind_error he]

/-! ### the hypotheses can be met -/

example : GgnApprox (gaussianGgn ⟨.average, .diag, .approx⟩ exNet.mod exInput .weight) exStore 2 1 21 .average
    (fun b => exNet.sem.QW (exNet.w exStore) (fun i : Fin 2 => (2 * b + i : ℝ)))
    (fun b H => ∀ t, HasHess (fun y => gaussLL y t) H (forwardMap exNet.mod exStore [2] (fun i : Fin 2 => (2 * b + i : ℝ)))) :=
  (C45_gaussian (N := exNet) (cfg := ⟨.average, .diag, .approx⟩) exNet_ok exNet_hooks (by norm_num) exInput_isBatch (.inr rfl) rfl rfl).2 (by norm_num)

example (wrt : Wrt) : (bernoulliGgn ⟨.sum, .diag, .approx⟩ clsNet.mod exInput wrt exStore).1 = .error .assertion :=
  C45_bernoulli_raises clsNet_ok clsNet_hooks (by norm_num) exInput_isBatch (by simp [clsNet, Net.Container]) .sum .diag wrt

/-- `Sequential(Tanh(), Linear(2, 3), ReLU())` -/
example : ∃ t u, Returns (binaryGgn ⟨.sum, .diag, .approx⟩ actNet.mod exInput .input) actStore (.tensor t) ∧
    Returns (binaryGgn ⟨.sum, .diag, .exact⟩ actNet.mod exInput .input) actStore (.tensor u) ∧ TEq t u := by
  refine ((C45_exact (N := actNet) actNet_ok (by simp [actNet, actStore, Net.mod, Sequential.mod]) two_pos exInput_isBatch .sum (.inl rfl)).1 fun b => ?_).2
  simp only [actNet, Net.Exact, Net.w]
  refine Chain.AllButOneDiag.exact _ _ _ ?_
  simp only [Chain.AllButOneDiag, Chain.AllDiag, Net.Leaf, Net.sem]
  exact ⟨trivial, .inr ⟨⟨trivial, .inl ⟨trivial, trivial, act_onDiag _ _ _ _⟩⟩, act_onDiag _ _ _ _⟩⟩

example : flatNet.Leaf ∧ ¬ flatNet.IsL2 := ⟨by simp [flatNet, Net.Leaf], by simp [flatNet, Net.IsL2]⟩
noncomputable def l2Net : Net [2] 2 [2] 2 0 := .l2norm 9 1 [2] 2 rfl (by simp) two_pos
theorem l2Net_isL2 : l2Net.IsL2 := trivial
example : ∃ e, (bernoulliGgn ⟨.sum, .full, .approx⟩ l2Net.mod exInput .input exStore).1 = .error e :=
  C45_l2norm_bernoulli (N := l2Net) l2Net_isL2 ⟨by simp [l2Net, Net.ids], trivial⟩ rfl two_pos exInput_isBatch .sum .full
example : (gaussianGgn ⟨.sum, .full, .approx⟩ exNet.mod exInput .input exStore).1 = .error .assertion :=
  (C45_full_raises (N := exNet) exNet_ok exNet_hooks two_pos exInput_isBatch (by simp [exNet, Net.Container]) .sum .input).1

/-- C45: not the exact diagonal in general: for `x ↦ x + x` written as two Linear layers, "approx" gives -2 and "exact" -4. -/
theorem C45_not_exact : ∃ t u,
    Returns (gaussianGgn ⟨.sum, .diag, .approx⟩ twoLin.mod ⟨[1, 1], fun _ => 5⟩ .input) twoLinStore (.tensor t) ∧
    Returns (gaussianGgn ⟨.sum, .diag, .exact⟩ twoLin.mod ⟨[1, 1], fun _ => 5⟩ .input) twoLinStore (.tensor u) ∧
    t.get [0] = -2 ∧ u.get [0] = -4 := by
  have hx : IsBatch (⟨[1, 1], fun _ => 5⟩ : Tensor ℝ) 1 [1] 1 fun _ _ => 5 := ⟨rfl, fun _ _ => rfl⟩
  have hh : twoLinStore.hooks twoLin.mod.id = [] := by simp [twoLin, twoLinStore, Net.mod, Sequential.mod]
  obtain ⟨t, ht, hT⟩ := (gaussianGgn_db (cfg := ⟨.sum, .diag, .approx⟩) twoLin_ok hh one_pos hx (.inl rfl) rfl rfl).1
  obtain ⟨u, hu, hU⟩ := (gaussianGgn_run (cfg := ⟨.sum, .diag, .exact⟩) twoLin_ok hh one_pos hx (.inl rfl) rfl).inputDiag rfl
  refine ⟨t, u, ht, hu, ?_, ?_⟩
  · have e := hT.2 0
    simp only [Fin.val_zero] at e
    simp only [Tensor.get, hT.1, ravel, size, Nat.zero_mul, Nat.zero_add]
    rw [e]
    simp only [Net.Q, twoLin_w, aggFactor]
    simp [twoLin, Net.sem, Chain.sem, Sem.comp, Sem.id, linearSem, Sem.leaf, vecMul, dotProduct, Matrix.mul_apply, sq, wl, wr]
  · have e := hU.2 0
    simp only [Fin.val_zero] at e
    simp only [Tensor.get, hU.1, ravel, size, Nat.zero_mul, Nat.zero_add]
    rw [e]
    have e2 : (∑ _b : Fin 1, ((twoLin.J twoLinStore (fun _ => 5))ᵀ * (diagonal fun _ => (-1 : ℝ)) * twoLin.J twoLinStore (fun _ => 5) : Matrix (Fin 1) (Fin 1) ℝ) 0 0) = -4 := by
      refine (Finset.sum_const _).trans ?_
      refine (congrArg _ (congrFun (diag_conj (twoLin.J twoLinStore (fun _ => 5)) fun _ => -1) 0)).trans ?_
      simp only [Net.J, twoLin_w]
      simp [twoLin, Net.sem, Chain.sem, Sem.comp, Sem.id, linearSem, Sem.leaf, vecMul, dotProduct, sq, wl, wr]
      have e : ∀ (A : Matrix (Fin 1) (Fin 2) ℝ) (C : Matrix (Fin 2) (Fin 1) ℝ), (A * (C * (1 : Matrix (Fin 1) (Fin 1) ℝ)) : Matrix (Fin 1) (Fin 1) ℝ) 0 0 = A 0 0 * C 0 0 + A 0 1 * C 1 0 := by
        intro A C; rw [Matrix.mul_one, Matrix.mul_apply, Fin.sum_univ_two]
      refine Eq.trans (congrArg₂ (· * ·) (e _ _) (e _ _)) ?_; norm_num
    rw [e2]
    simp [aggFactor]

end Props
end NNJ
