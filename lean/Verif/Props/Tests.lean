import Verif.Proofs.TestsReach
import Verif.Spec.Example

/-!
# C64: the repository's tests of the products (tests/jacobian_products.py)

`Test.run` is one test function on one layer and one input; `randn` are the random draws, any tensors of the requested shapes.
-/

namespace NNJ.Props
open NNJ Tensor Matrix Tests

section
variable {s s' : List Nat} {n k p B : Nat} {N : Net s n s' k p} {st : Store ℝ} {X : Fin B → Fin n → ℝ} {x : Tensor ℝ} {randn : Draws}

/-- C64: every test passes, for every network it supports, every batch, all weights and all draws; parameters and hooks are as before. -/
theorem C64_test (t : Test) (ht : t.For N) (hok : N.Ok st) (htop : st.hooks N.mod.id = []) (hB : 0 < B) (hx : IsBatch x B s n X) (hr : randn.Shaped) :
    ∃ st', t.run N.tree N.mod x randn st = (.ok (), st') ∧ st'.param = st.param ∧ st'.hooks = st.hooks ∧ N.Ok st' := by
  obtain ⟨_, st', e, S⟩ := run_test hok hB hx hr htop t ht
  exact ⟨st', e, S.step.param, S.step.hooks, S.ok⟩

/-- C64: so does any sequence of tests on any networks in one program (test_jvp_wrt_input, ..., on all combinations of layers and inputs), whatever the earlier
tests left behind in feature maps; layers may be shared. -/
theorem C64_suite (js : List Job) (h : ∀ j ∈ js, j.Ready st) : ∃ st', runAll js st = (.ok (), st') ∧ st'.param = st.param ∧ st'.hooks = st.hooks := by
  obtain ⟨_, st', e, h1, h2⟩ := run_all js h
  exact ⟨st', e, h1, h2⟩

/-- C64: with a parameter-free Sequential or SkipConnection inside a network with parameters, the helper `embed_block_diagonal` raises IndexError (it reads the
first of no blocks), so the tests of `jmjTp` with a full matrix over weights cannot be run. -/
theorem C64_nested_empty (hok : N.Ok st) (hB : 0 < B) (hx : IsBatch x B s n X) (hr : randn.Shaped) (hp : 0 < p) (hN : ¬ N.NestedFull) (td : Bool) :
    ((Test.jmjTpWeight false td).run N.tree N.mod x randn st).1 = .error .index :=
  run_jmjTpWeight_bad hok hB hx hr hp hN td

/-- C64: the draws of `generate_random_matrix_params` are independent: they reach every matrix that is zero outside the blocks of the layers, in one list of blocks
that the helper `embed_block_diagonal` puts together to this matrix. -/
theorem C64_blocks (hN : N.NestedFull) (hp : 0 < p) (Z : Fin B → Matrix (Fin p) (Fin p) ℝ) (hZ : ∀ b, N.sem.mask (Z b) = Z b) :
    ∃ randn : Draws, randn.Shaped ∧ N.Blocks (generate randn B N.tree 0).1 B Z ∧ ∃ t, embed (generate randn B N.tree 0).1 = .ok t ∧ IsMat t B p p Z := by
  obtain ⟨r, hr, h⟩ := reach_net B N hN hp Z hZ 0
  obtain ⟨h1, -, h2⟩ := h r ⟨hr, fun _ _ _ => rfl⟩
  exact ⟨r, hr, h1, h2⟩

end

/-! The tests detect: for *any* module `L`, a test passes exactly when the returned product has the shape and, within the tolerance, the entries of the one formed
from the returned Jacobian, and raises AssertionError otherwise. -/

section
variable {s s' : List Nat} {n k p c B : Nat} {L : Mod ℝ} {st s0 s1 s2 : Store ℝ} {X : Fin B → Fin n → ℝ} {Y : Fin B → Fin k → ℝ} {x y j f : Tensor ℝ} {randn : Draws}
  {tree : Tree} {M : Fin B → Matrix (Fin k) (Fin n) ℝ} {MW : Fin B → Matrix (Fin k) (Fin p) ℝ}

/-- C64: the test of `jvp` with respect to the input -/
theorem C64_detects_jvp_input (hs : size s = n) (hB : 0 < B) (hx : IsBatch x B s n X) (hj : L.jacobian x none .input st = (.ok (some j), s1)) (hJ : IsMat j B k n M)
    (hf : L.jvp x none (randn 0 [B, n]) .input s1 = (.ok (some f), s2))
    {U : Fin B → Fin n → ℝ} (hu : IsVec (randn 0 [B, n]) B n U) :
    Verdict (Test.jvpInput.run tree L x randn st) s2 (NearVec f B k fun b => M b *ᵥ U b) := by
  obtain ⟨slow, e, hS⟩ := ein_bij_bj hJ hu
  simp only [Test.run, jvpInput, hx.dim0, hx.numel0 hB hs, Prog.bind_lift_ok]
  rw [Prog.bind_ok hj, Prog.need_some, Prog.bind_pure_run', e, Prog.bind_lift_ok, Prog.bind_ok hf, Prog.need_some, Prog.bind_pure_run']
  exact verdict_vec hS

/-- C64: the test of `jvp` with respect to the weights -/
theorem C64_detects_jvp_weight (hx : IsBatch x B s n X) (hnp : L.nParams = p) (hp : 0 < p) (hf : L.jvp x none (randn 0 [B, p]) .weight st = (.ok (some f), s1))
    (hj : L.jacobian x none .weight s1 = (.ok (some j), s2)) (hJ : IsMat j B k p MW)
    {U : Fin B → Fin p → ℝ} (hu : IsVec (randn 0 [B, p]) B p U) :
    Verdict (Test.jvpWeight.run tree L x randn st) s2 (NearVec f B k fun b => MW b *ᵥ U b) := by
  obtain ⟨slow, e, hS⟩ := ein_bij_bj hJ hu
  simp only [Test.run, jvpWeight, hx.dim0, Prog.bind_lift_ok, hnp]
  rw [Prog.bind_ok hf, if_neg (by omega), Prog.bind_ok hj, Prog.need_some, Prog.bind_pure_run', e, Prog.bind_lift_ok, Prog.need_some, Prog.bind_pure_run']
  exact verdict_vec hS

/-- C64: the test of `jmp` with respect to the input -/
theorem C64_detects_jmp_input (hs : size s = n) (hx : IsBatch x B s n X) (hj : L.jacobian x none .input st = (.ok (some j), s1)) (hJ : IsMat j B k n M)
    (hf : L.jmp x none (some (randn 0 [B, n, 120])) .input s1 = (.ok (some f), s2))
    {U : Fin B → Matrix (Fin n) (Fin 120) ℝ} (hu : IsMat (randn 0 [B, n, 120]) B n 120 U) :
    Verdict (Test.jmpInput.run tree L x randn st) s2 (NearMat f B k 120 fun b => M b * U b) := by
  obtain ⟨slow, e, hS⟩ := ein_bij_bjk hJ hu
  simp only [Test.run, jmpInput, hx.dim0, tail_size hs hx, Prog.bind_lift_ok]
  rw [Prog.bind_ok hj, Prog.need_some, Prog.bind_pure_run', e, Prog.bind_lift_ok, Prog.bind_ok hf, Prog.need_some, Prog.bind_pure_run']
  exact verdict_mat hS

/-- C64: the test of `jmp` with respect to the weights -/
theorem C64_detects_jmp_weight (hx : IsBatch x B s n X) (hnp : L.nParams = p) (hp : 0 < p) (hf : L.jmp x none (some (randn 0 [B, p, 120])) .weight st = (.ok (some f), s1))
    (hj : L.jacobian x none .weight s1 = (.ok (some j), s2)) (hJ : IsMat j B k p MW)
    {U : Fin B → Matrix (Fin p) (Fin 120) ℝ} (hu : IsMat (randn 0 [B, p, 120]) B p 120 U) :
    Verdict (Test.jmpWeight.run tree L x randn st) s2 (NearMat f B k 120 fun b => MW b * U b) := by
  obtain ⟨slow, e, hS⟩ := ein_bij_bjk hJ hu
  simp only [Test.run, jmpWeight, hx.dim0, Prog.bind_lift_ok, hnp]
  rw [Prog.bind_ok hf, if_neg (by omega), Prog.bind_ok hj, Prog.need_some, Prog.bind_pure_run', e, Prog.bind_lift_ok, Prog.need_some, Prog.bind_pure_run']
  exact verdict_mat hS

/-- C64: the test of `vjp` with respect to the input -/
theorem C64_detects_vjp_input (hk : size s' = k) (hB : 0 < B) (hy : L.call x st = (.ok y, s0)) (hY : IsBatch y B s' k Y)
    (hj : L.jacobian x none .input s0 = (.ok (some j), s1)) (hJ : IsMat j B k n M) (hf : L.vjp x none (randn 0 [B, k]) .input s1 = (.ok (some f), s2))
    {U : Fin B → Fin k → ℝ} (hu : IsVec (randn 0 [B, k]) B k U) :
    Verdict (Test.vjpInput.run tree L x randn st) s2 (NearVec f B n fun b => U b ᵥ* M b) := by
  obtain ⟨slow, e, hS⟩ := ein_bi_bij hu hJ
  simp only [Test.run, vjpInput]
  rw [Prog.bind_ok hy]
  simp only [hY.dim0, hY.numel0 hB hk, Prog.bind_lift_ok]
  rw [Prog.bind_ok hj, Prog.need_some, Prog.bind_pure_run', e, Prog.bind_lift_ok, Prog.bind_ok hf, Prog.need_some, Prog.bind_pure_run']
  exact verdict_vec hS

/-- C64: the test of `vjp` with respect to the weights -/
theorem C64_detects_vjp_weight (hk : size s' = k) (hB : 0 < B) (hy : L.call x st = (.ok y, s0)) (hY : IsBatch y B s' k Y)
    (hnp : L.nParams = p) (hp : 0 < p) (hf : L.vjp x none (randn 0 [B, k]) .weight s0 = (.ok (some f), s1))
    (hj : L.jacobian x none .weight s1 = (.ok (some j), s2)) (hJ : IsMat j B k p MW)
    {U : Fin B → Fin k → ℝ} (hu : IsVec (randn 0 [B, k]) B k U) :
    Verdict (Test.vjpWeight.run tree L x randn st) s2 (NearVec f B p fun b => U b ᵥ* MW b) := by
  obtain ⟨slow, e, hS⟩ := ein_bi_bij hu hJ
  simp only [Test.run, vjpWeight]
  rw [Prog.bind_ok hy]
  simp only [hY.dim0, hY.numel0 hB hk, Prog.bind_lift_ok]
  rw [Prog.bind_ok hf, hnp, if_neg (by omega), Prog.bind_ok hj, Prog.need_some, Prog.bind_pure_run', e, Prog.bind_lift_ok, Prog.need_some, Prog.bind_pure_run']
  exact verdict_vec hS

/-- C64: the test of `mjp` with respect to the input -/
theorem C64_detects_mjp_input (hk : size s' = k) (hx : IsBatch x B s n X) (hy : L.call x st = (.ok y, s0)) (hY : IsBatch y B s' k Y)
    (hj : L.jacobian x none .input s0 = (.ok (some j), s1)) (hJ : IsMat j B k n M) (hf : L.mjp x none (some (randn 0 [B, 120, k])) .input s1 = (.ok (some f), s2))
    {U : Fin B → Matrix (Fin 120) (Fin k) ℝ} (hu : IsMat (randn 0 [B, 120, k]) B 120 k U) :
    Verdict (Test.mjpInput.run tree L x randn st) s2 (NearMat f B 120 n fun b => U b * M b) := by
  obtain ⟨slow, e, hS⟩ := ein_bij_bjk hu hJ
  simp only [Test.run, mjpInput, hx.dim0, Prog.bind_lift_ok]
  rw [Prog.bind_ok hy]
  simp only [tail_size hk hY]
  rw [Prog.bind_ok hj, Prog.need_some, Prog.bind_pure_run', e, Prog.bind_lift_ok, Prog.bind_ok hf, Prog.need_some, Prog.bind_pure_run']
  exact verdict_mat hS

/-- C64: the test of `mjp` with respect to the weights -/
theorem C64_detects_mjp_weight (hk : size s' = k) (hx : IsBatch x B s n X) (hy : L.call x st = (.ok y, s0)) (hY : IsBatch y B s' k Y)
    (hnp : L.nParams = p) (hp : 0 < p) (hf : L.mjp x none (some (randn 0 [B, 120, k])) .weight s0 = (.ok (some f), s1))
    (hj : L.jacobian x none .weight s1 = (.ok (some j), s2)) (hJ : IsMat j B k p MW)
    {U : Fin B → Matrix (Fin 120) (Fin k) ℝ} (hu : IsMat (randn 0 [B, 120, k]) B 120 k U) :
    Verdict (Test.mjpWeight.run tree L x randn st) s2 (NearMat f B 120 p fun b => U b * MW b) := by
  obtain ⟨slow, e, hS⟩ := ein_bij_bjk hu hJ
  simp only [Test.run, mjpWeight, hx.dim0, Prog.bind_lift_ok]
  rw [Prog.bind_ok hy]
  simp only [tail_size hk hY]
  rw [Prog.bind_ok hf, hnp, if_neg (by omega), Prog.bind_ok hj, Prog.need_some, Prog.bind_pure_run', e, Prog.bind_lift_ok, Prog.need_some, Prog.bind_pure_run']
  exact verdict_mat hS

/-- C64: the test of `jmjTp` with respect to the input -/
theorem C64_detects_jmjTp_input (fd td : Bool) (hs : size s = n) (hx : IsBatch x B s n X) (hj : L.jacobian x none .input st = (.ok (some j), s1))
    (hJ : IsMat j B k n M) {Z : Fin B → Matrix (Fin n) (Fin n) ℝ} (hu : MetricArg fd (randn 0 (if fd then [B, n] else [B, n, n])) B n Z)
    (hf : L.jmjTp x none (.tensor (randn 0 (if fd then [B, n] else [B, n, n]))) .input fd td false s1 = (.ok (some f), s2)) :
    Verdict ((Test.jmjTpInput fd td).run tree L x randn st) s2 (NearMetric td f B k fun b => M b * Z b * (M b)ᵀ) := by
  obtain ⟨slow, e, hS⟩ := slow_jmj fd td hJ hu
  simp only [Test.run, jmjTpInput, hx.dim0, tail_size hs hx, Prog.bind_lift_ok]
  rw [Prog.bind_ok hj, Prog.need_some, Prog.bind_pure_run']
  refine Eq.mpr (congrArg (Verdict · _ _) (lift_then e)) ?_
  rw [Prog.bind_ok hf, Prog.need_some, Prog.bind_pure_run']
  exact verdict_metric hS

/-- C64: the test of `jTmjp` with respect to the input; with `from_diag=True` only the metric `1` is tried -/
theorem C64_detects_jTmjp_input (fd td : Bool) (hk : size s' = k) (hx : IsBatch x B s n X) (hy : L.call x st = (.ok y, s0)) (hY : IsBatch y B s' k Y)
    (hj : L.jacobian x none .input s0 = (.ok (some j), s1)) (hJ : IsMat j B k n M) {Z : Fin B → Matrix (Fin k) (Fin k) ℝ}
    (hu : if fd then Z = 1 else IsMat (randn 0 [B, k, k]) B k k Z)
    (hf : L.jTmjp x none (some (if fd then ones [B, k] else randn 0 [B, k, k])) .input fd td false s1 = (.ok (.tensor f), s2)) :
    Verdict ((Test.jTmjpInput fd td).run tree L x randn st) s2 (NearMetric td f B n fun b => (M b)ᵀ * Z b * M b) := by
  have hu' : MetricArg fd (if fd then ones [B, k] else randn 0 [B, k, k]) B k Z := by
    cases fd
    · exact hu
    · refine ⟨fun _ _ => 1, ⟨rfl, fun _ _ => rfl⟩, fun b => ?_⟩
      simp only [if_true] at hu
      rw [hu]
      exact diagonal_one.symm
  obtain ⟨slow, e, hS⟩ := slow_jTm fd td hJ hu'
  simp only [Test.run, jTmjpInput]
  rw [Prog.bind_ok hy]
  simp only [hx.dim0, tail_size hk hY, Prog.bind_lift_ok]
  rw [Prog.bind_ok hj, Prog.need_some, Prog.bind_pure_run']
  refine Eq.mpr (congrArg (Verdict · _ _) (lift_then e)) ?_
  rw [Prog.bind_ok hf]
  exact verdict_metric hS

/-- C64: the test of `jmjTp` with respect to the weights, with `from_diag=True` or for a single layer -/
theorem C64_detects_jmjTp_weight (fd td : Bool) (ht : fd = true ∨ tree = .layer p) (hx : IsBatch x B s n X) (hnp : L.nParams = p) (hp : 0 < p)
    (hj : L.jacobian x none .weight st = (.ok (some j), s1)) (hJ : IsMat j B k p MW) {Z : Fin B → Matrix (Fin p) (Fin p) ℝ}
    (hu : MetricArg fd (randn 0 (if fd then [B, p] else [B, p, p])) B p Z)
    (hf : L.jmjTp x none (.tensor (randn 0 (if fd then [B, p] else [B, p, p]))) .weight fd td false s1 = (.ok (some f), s2)) :
    Verdict ((Test.jmjTpWeight fd td).run tree L x randn st) s2 (NearMetric td f B k fun b => MW b * Z b * (MW b)ᵀ) := by
  obtain ⟨slow, e, hS⟩ := slow_jmj fd td hJ hu
  simp only [Test.run, jmjTpWeight, hnp, if_neg (show ¬ p = 0 by omega), hx.dim0, Prog.bind_lift_ok]
  rw [Prog.bind_ok hj, Prog.need_some, Prog.bind_pure_run']
  have e' : (if fd then .tensor (randn 0 [B, p]) else (generate randn B tree 0).1 : PyVal ℝ) = .tensor (randn 0 (if fd then [B, p] else [B, p, p])) := by
    cases fd
    · rw [ht.resolve_left (by simp)]
      simp [generate, show ¬ p = 0 by omega]
    · rfl
  rw [e']
  refine Eq.mpr (congrArg (Verdict · _ _) (lift_then (b := slow) ?_)) ?_
  · rw [← e]
    cases fd <;> cases td <;> rfl
  rw [Prog.bind_ok hf, Prog.need_some, Prog.bind_pure_run']
  exact verdict_metric hS

/-- C64: the test of `jmjTp` with respect to the weights with a full matrix, for a container: a nested list of blocks is passed -/
theorem C64_detects_jmjTp_nested (td : Bool) (hx : IsBatch x B s n X) (hnp : L.nParams = p) (hp : 0 < p)
    (hj : L.jacobian x none .weight st = (.ok (some j), s1)) (hJ : IsMat j B k p MW) {Z : Fin B → Matrix (Fin p) (Fin p) ℝ} {z : Tensor ℝ}
    (he : embed (generate randn B tree 0).1 = .ok z) (hz : IsMat z B p p Z)
    (hf : L.jmjTp x none (generate randn B tree 0).1 .weight false td false s1 = (.ok (some f), s2)) :
    Verdict ((Test.jmjTpWeight false td).run tree L x randn st) s2 (NearMetric td f B k fun b => MW b * Z b * (MW b)ᵀ) := by
  obtain ⟨slow, e, hS⟩ := slow_jmj false td hJ (C := z) hz
  simp only [Test.run, jmjTpWeight, hnp, if_neg (show ¬ p = 0 by omega), hx.dim0, Prog.bind_lift_ok, he]
  rw [Prog.bind_ok hj, Prog.need_some, Prog.bind_pure_run']
  refine Eq.mpr (congrArg (Verdict · _ _) (lift_then (b := slow) ?_)) ?_
  · rw [← e, if_neg (by simp), he]
    cases td <;> rfl
  refine Eq.mpr (congrArg (Verdict · _ _) (Prog.bind_ok hf)) ?_
  rw [Prog.need_some, Prog.bind_pure_run']
  exact verdict_metric hS

/-- C64: the test of `jTmjp` with respect to the weights, when a tensor of the right shape is returned (this test does not compare the shapes) -/
theorem C64_detects_jTmjp_weight (fd td : Bool) (hk : size s' = k) (hx : IsBatch x B s n X) (hy : L.call x st = (.ok y, s0)) (hY : IsBatch y B s' k Y)
    (hnp : L.nParams = p) (hp : 0 < p) (hj : L.jacobian x none .weight s0 = (.ok (some j), s1)) (hJ : IsMat j B k p MW) {Z : Fin B → Matrix (Fin k) (Fin k) ℝ}
    (hu : MetricArg fd (randn 0 (if fd then [B, k] else [B, k, k])) B k Z)
    (hf : L.jTmjp x none (some (randn 0 (if fd then [B, k] else [B, k, k]))) .weight fd td false s1 = (.ok (.tensor f), s2))
    (hs : f.shape = if td then [B, p] else [B, p, p]) :
    Verdict ((Test.jTmjpWeight fd td).run tree L x randn st) s2 (NearMetric td f B p fun b => (MW b)ᵀ * Z b * MW b) := by
  obtain ⟨slow, e, hS⟩ := slow_jTm fd td hJ hu
  simp only [Test.run, jTmjpWeight, hnp, if_neg (show ¬ p = 0 by omega)]
  rw [Prog.bind_ok hy]
  simp only [hx.dim0, tail_size hk hY, Prog.bind_lift_ok]
  rw [Prog.bind_ok hj, Prog.need_some, Prog.bind_pure_run']
  refine Eq.mpr (congrArg (Verdict · _ _) (lift_then e)) ?_
  rw [Prog.bind_ok hf]
  have := verdict_metric hS (a := f) (st := s2)
  have hss : f.shape = slow.shape := by
    rw [hs]
    cases td
    · exact hS.1.symm
    · exact hS.1.symm
  simp only [check, hss, beq_self_eq_true, Prog.assert_true, Prog.bind_pure_run'] at this
  simp only [closeBlocks]
  cases h : isCloseAll f slow with
  | ok c => rw [h] at this; exact this
  | error e => rw [h] at this; exact this

end

/-! ### cases -/

/-- draws: all ones -/
noncomputable def exDraws : Draws := fun _ s => ⟨s, fun _ => 1⟩
theorem exDraws_shaped : exDraws.Shaped := fun _ _ => rfl

theorem exNet_all (t : Test) : t.For exNet := by
  have hI : exNet.FwdI := by simp [exNet, Net.FwdI, Chain.FwdI]
  have hW : exNet.FwdW := by simp [exNet, Net.FwdW, Chain.FwdW]
  have hN : exNet.NestedFull := by simp [exNet, Net.NestedFull, Chain.NestedFull, Net.Container]
  cases t <;> simp only [Test.For] <;> first | trivial | exact hI | exact ⟨hI, hW⟩ | exact .inr ⟨hI.pushW, fun _ => hN⟩

example (t : Test) : ∃ st', t.run exNet.tree exNet.mod exInput exDraws exStore = (.ok (), st') := by
  obtain ⟨st', e, _⟩ := C64_test t (exNet_all t) exNet_ok (by simp [exNet, Net.mod, Sequential.mod, exStore]) (by norm_num) exInput_isBatch exDraws_shaped
  exact ⟨st', e⟩

example : ∃ randn : Draws, randn.Shaped ∧ exNet.Blocks (generate randn 2 exNet.tree 0).1 2 (fun b => exNet.sem.mask (.of fun i j => (b + i - j : ℝ))) ∧
    ∃ t, embed (generate randn 2 exNet.tree 0).1 = .ok t ∧ IsMat t 2 _ _ (fun b => exNet.sem.mask (.of fun i j => (b + i - j : ℝ))) :=
  C64_blocks (by simp [exNet, Net.NestedFull, Chain.NestedFull, Net.Container]) (by norm_num) _ fun b => by
    ext i j
    simp only [Sem.mask, of_apply]
    split_ifs <;> rfl

/-- the twenty-four tests (eight, and four with four choices of flags), each run twice, one after the other -/
noncomputable def exJob (t : Test) : Job := ⟨exNet, exInput, fun (b : Fin 2) i => (2 * b + i : ℝ), exDraws, t⟩
def exTests : List Test := [.jvpInput, .jvpWeight, .vjpInput, .vjpWeight, .jmpInput, .jmpWeight, .mjpInput, .mjpWeight] ++
  [false, true].flatMap fun fd => [false, true].flatMap fun td => [.jmjTpInput fd td, .jmjTpWeight fd td, .jTmjpInput fd td, .jTmjpWeight fd td]

example : ∃ st', runAll (exTests.flatMap fun t => [exJob t, exJob t]) exStore = (.ok (), st') := by
  obtain ⟨st', e, _⟩ := C64_suite (exTests.flatMap fun t => [exJob t, exJob t]) (st := exStore) fun j hj => by
    obtain ⟨t, _, hj⟩ := List.mem_flatMap.1 hj
    obtain rfl : j = exJob t := by simpa using hj
    exact ⟨exNet_ok, by simp [exJob, exNet, Net.mod, Sequential.mod, exStore], by norm_num [exJob], exInput_isBatch, exDraws_shaped, exNet_all t⟩
  exact ⟨st', e⟩

/-- `Sequential(Linear(2, 1), Sequential(Tanh()))` -/
noncomputable def nestNet : Net [2] 2 [1] 1 (0 + (1 * 2 + 0) + (0 + 0)) :=
  .seq 0 (.snoc (.snoc (.nil [2] 2 rfl (by norm_num)) (.linear 1 0 none 2 1 (by norm_num) (by norm_num)))
    (.seq 2 (.snoc (.nil [1] 1 rfl (by norm_num)) (.act .tanh 3 [1] 1 rfl (by norm_num)))))
noncomputable def nestStore : Store ℝ where
  param _ := ⟨[1, 2], fun _ => 1⟩
  fmaps i := if i = 0 ∨ i = 2 then some [] else none
  pidx _ := none
  hooks i := match i with
    | 1 => [0]
    | 2 => [0]
    | 3 => [2]
    | _ => []
theorem nestNet_ok : nestNet.Ok nestStore := by
  refine ⟨by simp only [nestNet, Net.ids, Chain.ids]; decide, ?_⟩
  simp [nestNet, Net.Wired, Chain.Wired, nestStore, Net.mod, Linear.mod, Activation.toMod, Sequential.mod, PureLayer.toMod]

example : ((Test.jmjTpWeight false true).run nestNet.tree nestNet.mod exInput exDraws nestStore).1 = .error .index :=
  C64_nested_empty nestNet_ok (by norm_num) exInput_isBatch exDraws_shaped (by norm_num) (by simp [nestNet, Net.NestedFull, Chain.NestedFull, Net.Container]) true

/-- a layer that returns 2 as its Jacobians and 0 as every product: all tests fail on it -/
noncomputable def badMod : Mod ℝ := { exNet.mod with
  id := 9
  nParams := 1
  forward := fun _ => pure ⟨[1, 1], fun _ => 7⟩
  jacobian := fun _ _ _ => pure (some ⟨[1, 1, 1], fun _ => 2⟩)
  jvp := fun _ _ _ _ => pure (some ⟨[1, 1], fun _ => 0⟩)
  vjp := fun _ _ _ _ => pure (some ⟨[1, 1], fun _ => 0⟩)
  jmp := fun _ _ _ _ => pure (some ⟨[1, 1, 120], fun _ => 0⟩)
  mjp := fun _ _ _ _ => pure (some ⟨[1, 120, 1], fun _ => 0⟩)
  jmjTp := fun _ _ _ _ _ td _ => pure (some (if td then ⟨[1, 1], fun _ => 0⟩ else ⟨[1, 1, 1], fun _ => 0⟩))
  jTmjp := fun _ _ _ _ _ td _ => pure (.tensor (if td then ⟨[1, 1], fun _ => 0⟩ else ⟨[1, 1, 1], fun _ => 0⟩)) }

theorem badMod_call (st : Store ℝ) (h : st.hooks 9 = []) : badMod.call ⟨[1, 1], fun _ => 5⟩ st = (.ok ⟨[1, 1], fun _ => 7⟩, st) := by
  simp only [Mod.call, badMod, Prog.bind_pure_run, Prog.bind_read_run, h]
  rfl

example (st : Store ℝ) : Test.jvpInput.run (.layer 1) badMod ⟨[1, 1], fun _ => 5⟩ exDraws st = (.error .assertion, st) := by
  refine (C64_detects_jvp_input (s := [1]) (n := 1) (k := 1) (B := 1) (X := fun _ _ => 5) (M := fun _ => .of fun _ _ => 2) (U := fun _ _ => 1) rfl (by norm_num)
    ⟨rfl, fun _ _ => rfl⟩ rfl ⟨rfl, fun _ _ _ => rfl⟩ rfl ⟨rfl, fun _ _ => rfl⟩).2 fun h => ?_
  have := h.2 0 0
  norm_num [Near, Tensor.get, Matrix.mulVec, Matrix.vecMul, dotProduct] at this

example (st : Store ℝ) : Test.jmpInput.run (.layer 1) badMod ⟨[1, 1], fun _ => 5⟩ exDraws st = (.error .assertion, st) := by
  refine (C64_detects_jmp_input (s := [1]) (n := 1) (k := 1) (B := 1) (X := fun _ _ => 5) (M := fun _ => .of fun _ _ => 2) (U := fun _ => .of fun _ _ => 1) rfl
    ⟨rfl, fun _ _ => rfl⟩ rfl ⟨rfl, fun _ _ _ => rfl⟩ rfl ⟨rfl, fun _ _ _ => rfl⟩).2 fun h => ?_
  have := h.2 0 0 0
  norm_num [Near, Tensor.get, Matrix.mul_apply] at this

example (st : Store ℝ) : Test.jvpWeight.run (.layer 1) badMod ⟨[1, 1], fun _ => 5⟩ exDraws st = (.error .assertion, st) := by
  refine (C64_detects_jvp_weight (s := [1]) (n := 1) (k := 1) (p := 1) (B := 1) (X := fun _ _ => 5) (MW := fun _ => .of fun _ _ => 2) (U := fun _ _ => 1)
    ⟨rfl, fun _ _ => rfl⟩ rfl (by norm_num) rfl rfl ⟨rfl, fun _ _ _ => rfl⟩ ⟨rfl, fun _ _ => rfl⟩).2 fun h => ?_
  have := h.2 0 0
  norm_num [Near, Tensor.get, Matrix.mulVec, Matrix.vecMul, dotProduct] at this

example (st : Store ℝ) : Test.jmpWeight.run (.layer 1) badMod ⟨[1, 1], fun _ => 5⟩ exDraws st = (.error .assertion, st) := by
  refine (C64_detects_jmp_weight (s := [1]) (n := 1) (k := 1) (p := 1) (B := 1) (X := fun _ _ => 5) (MW := fun _ => .of fun _ _ => 2) (U := fun _ => .of fun _ _ => 1)
    ⟨rfl, fun _ _ => rfl⟩ rfl (by norm_num) rfl rfl ⟨rfl, fun _ _ _ => rfl⟩ ⟨rfl, fun _ _ _ => rfl⟩).2 fun h => ?_
  have := h.2 0 0 0
  norm_num [Near, Tensor.get, Matrix.mul_apply] at this

example (st : Store ℝ) (hh : st.hooks 9 = []) : Test.vjpInput.run (.layer 1) badMod ⟨[1, 1], fun _ => 5⟩ exDraws st = (.error .assertion, st) := by
  refine (C64_detects_vjp_input (s' := [1]) (k := 1) (B := 1) (Y := fun _ _ => 7) (n := 1) (M := fun _ => .of fun _ _ => 2) (U := fun _ _ => 1) rfl (by norm_num)
    (badMod_call st hh) ⟨rfl, fun _ _ => rfl⟩ rfl ⟨rfl, fun _ _ _ => rfl⟩ rfl ⟨rfl, fun _ _ => rfl⟩).2 fun h => ?_
  have := h.2 0 0
  norm_num [Near, Tensor.get, Matrix.mulVec, Matrix.vecMul, dotProduct] at this

example (st : Store ℝ) (hh : st.hooks 9 = []) : Test.vjpWeight.run (.layer 1) badMod ⟨[1, 1], fun _ => 5⟩ exDraws st = (.error .assertion, st) := by
  refine (C64_detects_vjp_weight (s' := [1]) (k := 1) (B := 1) (Y := fun _ _ => 7) (p := 1) (MW := fun _ => .of fun _ _ => 2) (U := fun _ _ => 1) rfl (by norm_num)
    (badMod_call st hh) ⟨rfl, fun _ _ => rfl⟩ rfl (by norm_num) rfl rfl ⟨rfl, fun _ _ _ => rfl⟩ ⟨rfl, fun _ _ => rfl⟩).2 fun h => ?_
  have := h.2 0 0
  norm_num [Near, Tensor.get, Matrix.mulVec, Matrix.vecMul, dotProduct] at this

example (st : Store ℝ) (hh : st.hooks 9 = []) : Test.mjpInput.run (.layer 1) badMod ⟨[1, 1], fun _ => 5⟩ exDraws st = (.error .assertion, st) := by
  refine (C64_detects_mjp_input (s' := [1]) (k := 1) (B := 1) (Y := fun _ _ => 7) (s := [1]) (n := 1) (X := fun _ _ => 5) (M := fun _ => .of fun _ _ => 2) (U := fun _ => .of fun _ _ => 1) rfl
    ⟨rfl, fun _ _ => rfl⟩ (badMod_call st hh) ⟨rfl, fun _ _ => rfl⟩ rfl ⟨rfl, fun _ _ _ => rfl⟩ rfl ⟨rfl, fun _ _ _ => rfl⟩).2 fun h => ?_
  have := h.2 0 0 0
  norm_num [Near, Tensor.get, Matrix.mul_apply] at this

example (st : Store ℝ) (hh : st.hooks 9 = []) : Test.mjpWeight.run (.layer 1) badMod ⟨[1, 1], fun _ => 5⟩ exDraws st = (.error .assertion, st) := by
  refine (C64_detects_mjp_weight (s' := [1]) (k := 1) (B := 1) (Y := fun _ _ => 7) (s := [1]) (n := 1) (p := 1) (X := fun _ _ => 5) (MW := fun _ => .of fun _ _ => 2) (U := fun _ => .of fun _ _ => 1) rfl
    ⟨rfl, fun _ _ => rfl⟩ (badMod_call st hh) ⟨rfl, fun _ _ => rfl⟩ rfl (by norm_num) rfl rfl ⟨rfl, fun _ _ _ => rfl⟩ ⟨rfl, fun _ _ _ => rfl⟩).2 fun h => ?_
  have := h.2 0 0 0
  norm_num [Near, Tensor.get, Matrix.mul_apply] at this

/-- as if it were a Sequential of one layer -/
example (st : Store ℝ) : ∃ randn : Draws, (Test.jmjTpWeight false true).run (.container [.layer 1]) badMod ⟨[1, 1], fun _ => 5⟩ randn st = (.error .assertion, st) := by
  obtain ⟨randn, -, -, z, he, hz⟩ := C64_blocks (N := .seq 0 (.snoc (.nil [1] 1 rfl (by norm_num)) (.linear 1 0 none 1 1 (by norm_num) (by norm_num))))
    (by simp [Net.NestedFull, Chain.NestedFull, Net.Container]) (by norm_num) (B := 1) (fun _ => .of fun _ _ => 1) fun b => by
      ext i j
      fin_cases i; fin_cases j
      simp [Sem.mask, Net.sem, Chain.sem, Sem.comp, linearSem, Sem.leaf, Fin.addCases]
  refine ⟨randn, (C64_detects_jmjTp_nested true (s := [1]) (n := 1) (k := 1) (p := 1) (B := 1) (X := fun _ _ => 5) (MW := fun _ => .of fun _ _ => 2)
    (Z := fun _ => .of fun _ _ => 1) (z := z) ⟨rfl, fun _ _ => rfl⟩ rfl (by norm_num) rfl ⟨rfl, fun _ _ _ => rfl⟩ ?_ ?_ rfl).2 fun h => ?_⟩
  · simpa [Net.tree, Chain.trees, biasLen] using he
  · exact hz
  · have := h.2 0 0
    norm_num [Near, Tensor.get, Matrix.mul_apply] at this

example (st : Store ℝ) : (Test.jmjTpInput false true).run (.layer 1) badMod ⟨[1, 1], fun _ => 5⟩ exDraws st = (.error .assertion, st) := by
  refine (C64_detects_jmjTp_input false true (s := [1]) (n := 1) (k := 1) (B := 1) (X := fun _ _ => 5) (M := fun _ => .of fun _ _ => 2) (Z := fun _ => .of fun _ _ => 1) rfl
    ⟨rfl, fun _ _ => rfl⟩ rfl ⟨rfl, fun _ _ _ => rfl⟩ ⟨rfl, fun _ _ _ => rfl⟩ rfl).2 fun h => ?_
  have := h.2 0 0
  norm_num [Near, Tensor.get, Matrix.mul_apply] at this

example (st : Store ℝ) (hh : st.hooks 9 = []) : (Test.jTmjpInput true false).run (.layer 1) badMod ⟨[1, 1], fun _ => 5⟩ exDraws st = (.error .assertion, st) := by
  refine (C64_detects_jTmjp_input true false (s' := [1]) (k := 1) (B := 1) (Y := fun _ _ => 7) (s := [1]) (n := 1) (X := fun _ _ => 5) (M := fun _ => .of fun _ _ => 2) (Z := 1) rfl
    ⟨rfl, fun _ _ => rfl⟩ (badMod_call st hh) ⟨rfl, fun _ _ => rfl⟩ rfl ⟨rfl, fun _ _ _ => rfl⟩ rfl rfl).2 fun h => ?_
  have := h.2 0 0 0
  norm_num [Near, Tensor.get, Matrix.mul_apply] at this

example (st : Store ℝ) : (Test.jmjTpWeight false false).run (.layer 1) badMod ⟨[1, 1], fun _ => 5⟩ exDraws st = (.error .assertion, st) := by
  refine (C64_detects_jmjTp_weight false false (.inr rfl) (s := [1]) (n := 1) (k := 1) (p := 1) (B := 1) (X := fun _ _ => 5) (MW := fun _ => .of fun _ _ => 2) (Z := fun _ => .of fun _ _ => 1)
    ⟨rfl, fun _ _ => rfl⟩ rfl (by norm_num) rfl ⟨rfl, fun _ _ _ => rfl⟩ ⟨rfl, fun _ _ _ => rfl⟩ rfl).2 fun h => ?_
  have := h.2 0 0 0
  norm_num [Near, Tensor.get, Matrix.mul_apply] at this

example (st : Store ℝ) (hh : st.hooks 9 = []) : (Test.jTmjpWeight true true).run (.layer 1) badMod ⟨[1, 1], fun _ => 5⟩ exDraws st = (.error .assertion, st) := by
  refine (C64_detects_jTmjp_weight true true (s' := [1]) (k := 1) (B := 1) (Y := fun _ _ => 7) (s := [1]) (n := 1) (p := 1) (X := fun _ _ => 5) (MW := fun _ => .of fun _ _ => 2) (Z := fun _ => 1) rfl
    ⟨rfl, fun _ _ => rfl⟩ (badMod_call st hh) ⟨rfl, fun _ _ => rfl⟩ rfl (by norm_num) rfl ⟨rfl, fun _ _ _ => rfl⟩
    ⟨fun _ _ => 1, ⟨rfl, fun _ _ => rfl⟩, fun _ => diagonal_one.symm⟩ rfl rfl).2 fun h => ?_
  have := h.2 0 0
  norm_num [Near, Tensor.get, Matrix.mul_apply] at this

end NNJ.Props
