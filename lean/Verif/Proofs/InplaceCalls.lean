import Verif.Proofs.InplaceRun
import Verif.Proofs.Calls
import Verif.Proofs.FeatureMaps

/-! Products after a forward pass with in-place ReLUs. -/

namespace NNJ
open Tensor Matrix

section
variable {s s' : List Nat} {n k p B : Nat} {N : Net s n s' k p} {X : Fin B → Fin n → ℝ} {x : Ref} {h : HStore ℝ} {ip : Nat → Bool}

/-- what the products need -/
structure AtIp (ip : Nat → Bool) (N : Net s n s' k p) (X : Fin B → Fin n → ℝ) (x v : Ref) (h h' : HStore ℝ) (X' : Fin B → Fin n → ℝ) : Prop where
  good : Good (N.ipMdl ip false)
  wired : (N.ipMdl ip false).wired h'.view
  hx : IsBatch (x.get h'.mem) B s n X'
  val : (N.ipMdl ip false).VOk h'.view X' (v.get h'.mem)
  cache : (N.ipMdl ip false).cache B X' h'.view
  J : (N.ipMdl ip false).J h'.view X' = fun b => N.J h.view (X b)
  JW : (N.ipMdl ip false).JW h'.view X' = fun b => N.JW h.view (X b)
  Q : (N.ipMdl ip false).Q h'.view X' = fun b => N.Q h.view (X b)
  QW : (N.ipMdl ip false).QW h'.view X' = fun b => N.QW h.view (X b)

theorem HRan.at (hnd : N.ids.Nodup) (hsafe : N.SkipsSafe ip) (hw : N.Wired h.view) (hx : IsBatch (x.get h.mem) B s n X) {v : Ref} {h' : HStore ℝ}
    (r : HRan ip N B X x v h h') : AtIp ip N X x v h h' fun b => rl (N.overwrites ip false) (X b) := by
  have hs := N.ip_sim ip false
  have hc := N.ip_cor ip false hsafe
  have hq := N.ip_corQ ip false hsafe
  have ew : (N.ipMdl ip false).w h'.view = N.w h.view := by
    rw [hs.w, N.mdl_w]; exact N.w_congr r.step.param
  have hl : Later false v h' h'.mem := ⟨fun _ _ _ => rfl, rfl⟩
  refine ⟨N.ip_good ip false hnd, (hs.wired _).2 ((N.good hnd).wired_of r.step.wiring ((N.mdl_wired _).2 hw)), ?_, Or.inr ?_, ?_, ?_, ?_, ?_, ?_⟩
  · exact hx.rl _ rfl r.mem.xin
  · refine r.out.congr fun b i => ?_
    simp only [Mdl.Y, ew, hc.f, rl_false]
  · exact r.cache false h'.mem h'.view hl ⟨rfl, fun i _ => ⟨rfl, rfl⟩⟩
  · funext b
    have := hc.J (N.w h.view) (X b)
    simp only [rmask_false, Matrix.one_mul] at this
    simp only [Mdl.J, ew, this]; rfl
  · funext b
    have := hc.JW (N.w h.view) (X b)
    simp only [rmask_false, Matrix.one_mul] at this
    simp only [Mdl.JW, ew, this]; rfl
  · funext b
    have := hq.J (N.w h.view) (X b)
    simp only [rmask_false, Matrix.one_mul, Sem.sqd] at this
    simp only [Mdl.Q, ew, this]; rfl
  · funext b
    have := hq.JW (N.w h.view) (X b)
    simp only [rmask_false, Matrix.one_mul, Sem.sqd] at this
    simp only [Mdl.QW, ew, this]; rfl

theorem run_congr {β : Type} {p1 p2 : Prog ℝ β} {st : Store ℝ} {Q : β → Store ℝ → Prop} (e : p1 st = p2 st) (h : Run p1 st Q) : Run p2 st Q := by
  obtain ⟨r, s1, e1, hr⟩ := h
  exact ⟨r, s1, e.symm.trans e1, hr⟩

theorem pair_of {β : Type} {f : β → PyVal ℝ} {post : β → Prop} (hdet : Det f post) {p1 p2 : Prog ℝ β} {st1 st2 : Store ℝ} {R1 R2 : β → Store ℝ → Prop}
    (h1 : Run p1 st1 fun r s' => post r ∧ R1 r s') (h2 : Run p2 st2 fun r s' => post r ∧ R2 r s') :
    ∃ r r2, Returns (do let r ← p1; pure (f r)) st1 r ∧ Returns (do let r ← p2; pure (f r)) st2 r2 ∧ PEq r r2 := by
  obtain ⟨a, s1, e1, ha, _⟩ := h1
  obtain ⟨c, s2, e2, hc, _⟩ := h2
  refine ⟨f a, f c, ?_, ?_, hdet a c ha hc⟩
  · simp only [Returns]; rw [Prog.bind_ok e1]; rfl
  · simp only [Returns]; rw [Prog.bind_ok e2]; rfl

theorem pair_of' {post : PyVal ℝ → Prop} (hdet : Det (fun v => v) post) {p1 p2 : Prog ℝ (PyVal ℝ)} {st1 st2 : Store ℝ} {R1 R2 : PyVal ℝ → Store ℝ → Prop}
    (h1 : Run p1 st1 fun r s' => post r ∧ R1 r s') (h2 : Run p2 st2 fun r s' => post r ∧ R2 r s') :
    ∃ r r2, Returns p1 st1 r ∧ Returns p2 st2 r2 ∧ PEq r r2 := by
  obtain ⟨a, s1, e1, ha, _⟩ := h1
  obtain ⟨c, s2, e2, hc, _⟩ := h2
  exact ⟨a, c, by simp only [Returns, e1], by simp only [Returns, e2], hdet a c ha hc⟩

/-- the products after the forward pass and those of the network without in-place layers -/
theorem AtIp.pair {v : Ref} {h' : HStore ℝ} {X' : Fin B → Fin n → ℝ} (a : AtIp ip N X x v h h' X') (hok : N.Ok h.view) (hB : 0 < B)
    (hx : IsBatch (x.get h.mem) B s n X) (c : Call) (hc : c.Valid N B) (hr : c.Reverse) :
    ∃ r r0, Returns (c.run N.mod (x.get h'.mem) (some (v.get h'.mem))) h'.view r ∧ Returns (c.run N.mod (x.get h.mem) none) h.view r0 ∧ PEq r r0 := by
  have hb := (N.ip_sim ip false).back
  rw [Net.mdl_m] at hb
  have eb : (N.ipMdl ip false).blocks = N.Blocks := by
    rw [(N.ip_sim ip false).blocks]
    exact funext fun v => funext fun B => funext fun Z => propext (N.mdl_blocks v B Z)
  have eb' : N.mdl.blocks = N.Blocks := funext fun v => funext fun B => funext fun Z => propext (N.mdl_blocks v B Z)
  cases c with
  | vjp u wrt =>
    cases wrt with
    | input =>
      have h1 := (a.good.vjpI a.wired hB a.hx (isVec_vecOf hc)).1 _ a.val a.cache
      dsimp only at h1
      rw [hb.vjp, a.J] at h1
      have h2 := (hok.g.vjpI hok.w hB hx (isVec_vecOf hc)).2
      rw [Net.mdl_m, Net.mdl_J] at h2
      exact pair_of (det_some fun t t' => teq_vec) h1 h2
    | weight =>
      have h1 := (a.good.vjpW a.wired hB a.hx (isVec_vecOf hc)).1 _ a.val a.cache
      dsimp only at h1
      rw [hb.vjp, a.JW] at h1
      have h2 := (hok.g.vjpW hok.w hB hx (isVec_vecOf hc)).2
      rw [Net.mdl_m, Net.mdl_JW] at h2
      exact pair_of (det_optW (p := p) fun t t' => teq_vec) h1 h2
    | other => exact hc.elim
  | mjp A wrt =>
    cases A with
    | none => cases wrt <;> exact hc.elim
    | some A =>
    cases wrt with
    | input =>
      obtain ⟨r, hr, hc⟩ := hc
      have h1 := (a.good.mjpI a.wired hB a.hx hr (isMat_matOf hc)).1 _ a.val a.cache
      dsimp only at h1
      rw [hb.mjp, a.J] at h1
      have h2 := (hok.g.mjpI hok.w hB hx hr (isMat_matOf hc)).2
      rw [Net.mdl_m, Net.mdl_J] at h2
      exact pair_of (det_some fun t t' => teq_mat) h1 h2
    | weight =>
      obtain ⟨r, hr, hc⟩ := hc
      have h1 := (a.good.mjpW a.wired hB a.hx hr (isMat_matOf hc)).1 _ a.val a.cache
      dsimp only at h1
      rw [hb.mjp, a.JW] at h1
      have h2 := (hok.g.mjpW hok.w hB hx hr (isMat_matOf hc)).2
      rw [Net.mdl_m, Net.mdl_JW] at h2
      exact pair_of (det_optW (p := p) fun t t' => teq_mat) h1 h2
    | other => exact hc.elim
  | jTmjp A wrt fd td db =>
    cases A with
    | none => cases wrt <;> exact hc.elim
    | some A =>
    cases wrt with
    | input =>
      obtain ⟨hc, hdb⟩ := hc
      cases db with
      | false =>
        have h1 := (a.good.jTI fd td a.wired hB a.hx (isMetric_metricOf hc)).1 _ a.val a.cache
        dsimp only at h1
        rw [hb.jTmjp, a.J] at h1
        have h2 := (hok.g.jTI fd td hok.w hB hx (isMetric_metricOf hc)).2
        rw [Net.mdl_m, Net.mdl_J] at h2
        exact pair_of' (det_tensor fun t t' => teq_metric) h1 h2
      | true =>
        obtain ⟨rfl, rfl⟩ := hdb rfl
        have h1 := (a.good.jTIdb a.wired hB a.hx (isVec_vecOf hc)).1 _ a.val a.cache
        dsimp only at h1
        rw [hb.jTmjp, a.Q] at h1
        have h2 := (hok.g.jTIdb hok.w hB hx (isVec_vecOf hc)).2
        rw [Net.mdl_m, Net.mdl_Q] at h2
        exact pair_of' (det_tensor fun t t' => teq_vec) h1 h2
    | weight =>
      obtain ⟨hc, hdb⟩ := hc
      cases db with
      | false =>
        cases td with
        | true =>
          have h1 := (a.good.jTWd fd a.wired hB a.hx (isMetric_metricOf hc)).1 _ a.val a.cache
          dsimp only at h1
          rw [hb.jTmjp, a.JW] at h1
          have h2 := (hok.g.jTWd fd hok.w hB hx (isMetric_metricOf hc)).2
          rw [Net.mdl_m, Net.mdl_JW] at h2
          exact pair_of' (det_optV (p := p) (det_tensor fun t t' => teq_vec)) h1 h2
        | false =>
          have h1 := (a.good.jTWf fd a.wired hB a.hx (isMetric_metricOf hc)).1 _ a.val a.cache
          dsimp only at h1
          rw [hb.jTmjp, eb, a.JW] at h1
          have h2 := (hok.g.jTWf fd hok.w hB hx (isMetric_metricOf hc)).2
          rw [Net.mdl_m, eb', Net.mdl_JW] at h2
          exact pair_of' (det_optV (p := p) fun v v' => Net.blocks_det N) h1 h2
      | true =>
        obtain ⟨rfl, rfl⟩ := hdb rfl
        have h1 := (a.good.jTWdb a.wired hB a.hx (isVec_vecOf hc)).1 _ a.val a.cache
        dsimp only at h1
        rw [hb.jTmjp, a.QW] at h1
        have h2 := (hok.g.jTWdb hok.w hB hx (isVec_vecOf hc)).2
        rw [Net.mdl_m, Net.mdl_QW] at h2
        exact pair_of' (det_optV (p := p) (det_tensor fun t t' => teq_vec)) h1 h2
    | other => exact hc.elim
  | _ => exact hr.elim

/-- `jacobian` of a Sequential after the forward pass -/
theorem AtIp.pair_jacobian {l id : Nat} {ch : Chain s n s' k p (l + 1)} {v : Ref} {h' : HStore ℝ} {X' : Fin B → Fin n → ℝ}
    (a : AtIp ip (.seq id ch) X x v h h' X') (hok : (Net.seq id ch).Ok h.view) (hB : 0 < B) (hx : IsBatch (x.get h.mem) B s n X)
    {Y : Fin B → Fin k → ℝ} (hv : IsBatch (v.get h'.mem) B s' k Y) (wrt : Wrt) (hc : (Call.jacobian wrt).Valid (.seq id ch) B) :
    ∃ r r0, Returns ((Call.jacobian wrt).run (Net.seq id ch).mod (x.get h'.mem) (some (v.get h'.mem))) h'.view r ∧
      Returns ((Call.jacobian wrt).run (Net.seq id ch).mod (x.get h.mem) none) h.view r0 ∧ PEq r r0 := by
  have hb := ((Net.seq id ch).ip_sim ip false).back
  rw [Net.mdl_m] at hb
  obtain ⟨I, hI, hIm⟩ := MChain.eyeFor_ret hok.g.hk hv
  have e : ∀ w, w = .input ∨ w = .weight → (Net.seq id ch).mod.mjp (x.get h'.mem) (some (v.get h'.mem)) (some I) w h'.view =
      (Net.seq id ch).mod.jacobian (x.get h'.mem) (some (v.get h'.mem)) w h'.view := fun w hw => by
    simp only [Net.mod]
    exact (Sequential.mjp_eye hw hI).symm
  cases wrt with
  | input =>
    have h1 := (a.good.mjpI a.wired hB a.hx hok.g.kpos hIm).1 _ a.val a.cache
    dsimp only at h1
    rw [hb.mjp, a.J] at h1
    have h2 := hok.g.jacI hok.w hB hx
    rw [Net.mdl_m, Net.mdl_J] at h2
    simp only [Matrix.one_mul] at h1
    have h1' := run_congr (e .input (Or.inl rfl)) h1
    exact pair_of (det_some fun t t' => teq_mat) h1' h2
  | weight =>
    have h1 := (a.good.mjpW a.wired hB a.hx hok.g.kpos hIm).1 _ a.val a.cache
    dsimp only at h1
    rw [hb.mjp, a.JW] at h1
    have h2 := hok.g.jacW hok.w hB hx (hc.imp (fun h => h) fun h => (Net.seq id ch).mdl_fwdW.2 h)
    rw [Net.mdl_m, Net.mdl_JW] at h2
    simp only [Matrix.one_mul] at h1
    have h1' := run_congr (e .weight (Or.inr rfl)) h1
    exact pair_of (det_optW (p := p) fun t t' => teq_mat) h1' h2
  | other => exact hc.elim

end

end NNJ
