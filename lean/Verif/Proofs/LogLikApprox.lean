import Verif.Proofs.LogLikRun
import Verif.Proofs.DiagBackprop

/-!
# `ggn` with `metric_backprop="approx"`
-/

namespace NNJ
open Tensor Matrix LogLik

variable {s s' : List Nat} {n k p : Nat} {N : Net s n s' k p} {st : Store ℝ}
variable {B : Nat} {X : Fin B → Fin n → ℝ} {x : Tensor ℝ} {cfg : Cfg}

/-- what `ggn` returns when the diagonals `d b` are propagated with squared Jacobians -/
def GgnDb (ggn : Wrt → Prog ℝ (PyVal ℝ)) (N : Net s n s' k p) (st : Store ℝ) (X : Fin B → Fin n → ℝ) (agg : AggArg) (d : Fin B → Fin k → ℝ) : Prop :=
  (∃ g, Returns (ggn .input) st (.tensor g) ∧ IsVec1 g n fun i => aggFactor agg B * ∑ b, (d b ᵥ* N.Q st (X b)) i) ∧
  (0 < p → ∃ g, Returns (ggn .weight) st (.tensor g) ∧ IsVec1 g p fun i => aggFactor agg B * ∑ b, (d b ᵥ* N.QW st (X b)) i) ∧
  (p = 0 → (ggn .weight st).1 = .error .type)

theorem AtVal.ggn_db {val A : Tensor ℝ} {d : Fin B → Fin k → ℝ} {st1 : Store ℝ} (c : AtVal N st X val st1) (hB : 0 < B)
    (hx : IsBatch x B s n X) {agg : AggArg} (hagg : agg = .sum ∨ agg = .average) (hA : IsVec A B k d)
    {ggn : Wrt → Prog ℝ (PyVal ℝ)} (e : ∀ wrt, ggn wrt st = (do
      let r ← N.mod.jTmjp x (some val) (some A) wrt true true true
      (aggValue agg r : Res _) : Prog ℝ _) st1) : GgnDb ggn N st X agg d := by
  have eQ : N.mdl.Q st1 X = fun b => N.Q st (X b) := by rw [Net.mdl_Q]; funext b; rw [Net.Q, Net.Q, c.w]
  have eW : N.mdl.QW st1 X = fun b => N.QW st (X b) := by rw [Net.mdl_QW]; funext b; rw [Net.QW, Net.QW, c.w]
  have hI := (c.ok.g.jTIdb c.ok.w hB hx hA).1 val c.vok c.cache
  have hW := (c.ok.g.jTWdb c.ok.w hB hx hA).1 val c.vok c.cache
  rw [Net.mdl_m, eQ] at hI
  rw [Net.mdl_m, eW] at hW
  refine ⟨?_, fun hp => ?_, fun hp => ?_⟩
  · refine runTensor ?_
    rw [Run, e .input]
    refine hI.bind fun r s1 ⟨hr, _⟩ => ?_
    obtain ⟨t, rfl, ht⟩ := isTensor_iff.1 hr
    exact Run.lift (aggValue_vec hagg ht) fun _ h => h
  · refine runTensor ?_
    rw [Run, e .weight]
    refine hW.bind fun r s1 ⟨hr, _⟩ => ?_
    rw [OptV, if_neg (by omega)] at hr
    obtain ⟨t, rfl, ht⟩ := isTensor_iff.1 hr
    exact Run.lift (aggValue_vec hagg ht) fun _ h => h
  · obtain ⟨r, s1, h1, h2, _⟩ := hW
    rw [OptV, if_pos hp] at h2
    rw [e .weight, Prog.bind_ok h1, aggValue_bad hagg (by simp [h2])]
    rfl

theorem gaussianGgn_db (h : N.Ok st) (hh : st.hooks N.mod.id = []) (hB : 0 < B) (hx : IsBatch x B s n X)
    (hagg : cfg.agg = .sum ∨ cfg.agg = .average) (hs : cfg.shape = .diag) (hbp : cfg.backprop = .approx) :
    GgnDb (gaussianGgn cfg N.mod x) N st X cfg.agg fun _ _ => -1 := by
  obtain ⟨val, st1, h1, c⟩ := h.call_run hh hB hx
  obtain ⟨r, h4, hr⟩ := reshapeInfer_batch ((isBatch_onesLike c.out).map fun a => -a) h.g.hk hB
  refine c.ggn_db hB hx hagg (A := r) hr fun wrt => ?_
  rw [gaussianGgn, Res.lift_bind_ok hx.dim0, Prog.bind_ok h1, Res.lift_bind_ok h4]
  rw [decide_eq_true hbp, decide_eq_true hs]

theorem binaryGgn_db (h : N.Ok st) (hh : st.hooks N.mod.id = []) (hB : 0 < B) (hx : IsBatch x B s n X)
    (hagg : cfg.agg = .sum ∨ cfg.agg = .average) (hs : cfg.shape = .diag) (hbp : cfg.backprop = .approx) :
    GgnDb (binaryGgn cfg N.mod x) N st X cfg.agg fun b i =>
      sigma (N.out st (X b) i) * sigma (N.out st (X b) i) - sigma (N.out st (X b) i) := by
  obtain ⟨val, st1, h1, c⟩ := h.call_run hh hB hx
  obtain ⟨r, h4, hr⟩ := reshapeInfer_batch ((c.out.map fun v => Trans.exp v / (1 + Trans.exp v)).map fun p => p * p - p) h.g.hk hB
  refine c.ggn_db hB hx hagg (A := r) hr fun wrt => ?_
  rw [binaryGgn, Res.lift_bind_ok hx.dim0, Prog.bind_ok h1, binaryProb, Res.lift_bind_ok h4]
  rw [decide_eq_true hbp, decide_eq_true hs]

/-- containers refuse `diag_backprop` unless both metrics are diagonals -/
theorem Net.Container.refuse (hN : N.Container) (val : Option (Tensor ℝ)) (A : Option (Tensor ℝ)) (wrt : Wrt) (fd td : Bool) (hf : ¬ (fd = true ∧ td = true)) (st : Store ℝ) :
    N.mod.jTmjp x val A wrt fd td true st = (.error .assertion, st) := by
  cases N with
  | seq id c => cases fd <;> cases td <;> simp_all [Net.mod, Sequential.mod, Sequential.jTmjp]
  | skip id fid c => cases fd <;> cases td <;> simp_all [Net.mod, SkipConnection.mod, SkipConnection.jTmjp]
  | _ => exact hN.elim

theorem gaussianGgn_refuse (h : N.Ok st) (hh : st.hooks N.mod.id = []) (hB : 0 < B) (hx : IsBatch x B s n X) (hN : N.Container)
    (hs : cfg.shape = .full) (hbp : cfg.backprop = .approx) (wrt : Wrt) : (gaussianGgn cfg N.mod x wrt st).1 = .error .assertion := by
  obtain ⟨val, st1, h1, c⟩ := h.call_run hh hB hx
  obtain ⟨r, h4, hr⟩ := reshapeInfer_batch ((isBatch_onesLike c.out).map fun a => -a) h.g.hk hB
  rw [gaussianGgn, Res.lift_bind_ok hx.dim0, Prog.bind_ok h1, Res.lift_bind_ok h4, decide_eq_true hbp,
    Prog.bind_error (hN.refuse _ _ _ _ _ (by simp [hs]) _)]

theorem binaryGgn_refuse (h : N.Ok st) (hh : st.hooks N.mod.id = []) (hB : 0 < B) (hx : IsBatch x B s n X) (hN : N.Container)
    (hs : cfg.shape = .full) (hbp : cfg.backprop = .approx) (wrt : Wrt) : (binaryGgn cfg N.mod x wrt st).1 = .error .assertion := by
  obtain ⟨val, st1, h1, c⟩ := h.call_run hh hB hx
  obtain ⟨r, h4, hr⟩ := reshapeInfer_batch ((c.out.map fun v => Trans.exp v / (1 + Trans.exp v)).map fun p => p * p - p) h.g.hk hB
  rw [binaryGgn, Res.lift_bind_ok hx.dim0, Prog.bind_ok h1, binaryProb, Res.lift_bind_ok h4, decide_eq_true hbp,
    Prog.bind_error (hN.refuse _ _ _ _ _ (by simp [hs]) _)]

theorem bernoulliGgn_refuse {c : Nat} {N : Net s n [c] c p} (h : N.Ok st) (hh : st.hooks N.mod.id = []) (hB : 0 < B) (hx : IsBatch x B s n X)
    (hN : N.Container) (hbp : cfg.backprop = .approx) (wrt : Wrt) : (bernoulliGgn cfg N.mod x wrt st).1 = .error .assertion := by
  obtain ⟨val, st1, h1, cl⟩ := h.call_run hh hB hx
  obtain ⟨r, h4, hr⟩ := bernoulliHessian_mat hB h.g.kpos cl.out
  rw [bernoulliGgn, Res.lift_bind_ok hx.dim0, Prog.bind_ok h1, Res.lift_bind_ok h4, decide_eq_true hbp,
    Prog.bind_error (hN.refuse _ _ _ _ _ (by simp) _)]

/-- the layers with their own `jTmjp` do not read `diag_backprop` -/
theorem Net.Leaf.ignores (hl : N.Leaf) (hn : ¬ N.IsL2) (val A : Option (Tensor ℝ)) (wrt : Wrt) (fd td db : Bool) :
    N.mod.jTmjp x val A wrt fd td db = N.mod.jTmjp x val A wrt fd td false := by
  cases N with
  | act a => cases a <;> rfl
  | l2norm => exact (hn trivial).elim
  | seq => exact hl.elim
  | skip => exact hl.elim
  | _ => rfl

/-- L2Norm inherits from AbstractJacobian, where `diag_backprop` sets both other flags -/
theorem Net.IsL2.sets (hn : N.IsL2) (val A : Option (Tensor ℝ)) (wrt : Wrt) (fd td : Bool) :
    N.mod.jTmjp x val A wrt fd td true = N.mod.jTmjp x val A wrt true true false := by
  cases N with
  | l2norm => rfl
  | _ => exact hn.elim

theorem bind_not_none {β γ : Type} {p : Res β} {f : β → Res (Option γ)} (h : ∀ b, f b ≠ .ok none) : (p >>= f) ≠ .ok none := by
  cases p with
  | error e => intro h; cases h
  | ok b => exact h b

theorem l2_not_none (eps : ℝ) (x : Tensor ℝ) (val : Option (Tensor ℝ)) : L2Norm.jacobian eps x val .input ≠ .ok none := by
  cases val <;> simp only [L2Norm.jacobian]
  all_goals repeat refine bind_not_none fun _ => ?_
  all_goals exact fun h => by cases h

/-- L2Norm: a full metric where a diagonal is expected -/
theorem Net.IsL2.rank (hn : N.IsL2) {A : Tensor ℝ} {a b c : Nat} (hA : A.shape = [a, b, c]) (val : Option (Tensor ℝ)) (fd td : Bool) (st : Store ℝ) :
    ∃ e s1, N.mod.jTmjp x val (some A) .input fd td true st = (.error e, s1) := by
  cases N with
  | l2norm id eps =>
    simp only [Net.mod, L2Norm.mod, PureLayer.toMod, L2Norm.layer, AbstractJacobian.defaults, AbstractJacobian.jTmjp, if_true]
    cases hj : L2Norm.jacobian eps x val .input with
    | error e => exact ⟨e, st, rfl⟩
    | ok j =>
      cases j with
      | none =>
        exact (l2_not_none eps x val hj).elim
      | some j =>
        refine ⟨.shape, st, ?_⟩
        simp only [needR, Res.bind_ok, einsum, ranksOk, hA]
        simp
  | _ => exact hn.elim

theorem gaussianGgn_congr {f f' : Mod ℝ} {cfg' : Cfg} (hagg : cfg.agg = cfg'.agg)
    (hc : f.call x = f'.call x) {wrt : Wrt}
    (h : ∀ v A, f.jTmjp x (some v) (some A) wrt true (cfg.shape = .diag) (cfg.backprop = .approx) =
      f'.jTmjp x (some v) (some A) wrt true (cfg'.shape = .diag) (cfg'.backprop = .approx)) :
    gaussianGgn cfg f x wrt = gaussianGgn cfg' f' x wrt := by
  simp only [gaussianGgn, h, hagg, hc]

theorem binaryGgn_congr {f f' : Mod ℝ} {cfg' : Cfg} (hagg : cfg.agg = cfg'.agg)
    (hc : f.call x = f'.call x) {wrt : Wrt}
    (h : ∀ v A, f.jTmjp x (some v) (some A) wrt true (cfg.shape = .diag) (cfg.backprop = .approx) =
      f'.jTmjp x (some v) (some A) wrt true (cfg'.shape = .diag) (cfg'.backprop = .approx)) :
    binaryGgn cfg f x wrt = binaryGgn cfg' f' x wrt := by
  simp only [binaryGgn, h, hagg, hc]

theorem bernoulliGgn_congr {f f' : Mod ℝ} {cfg' : Cfg} (hagg : cfg.agg = cfg'.agg)
    (hc : f.call x = f'.call x) {wrt : Wrt}
    (h : ∀ v A, f.jTmjp x (some v) (some A) wrt false (cfg.shape = .diag) (cfg.backprop = .approx) =
      f'.jTmjp x (some v) (some A) wrt false (cfg'.shape = .diag) (cfg'.backprop = .approx)) :
    bernoulliGgn cfg f x wrt = bernoulliGgn cfg' f' x wrt := by
  simp only [bernoulliGgn, h, hagg, hc]

end NNJ
