import Verif.Proofs.JacTestsNet
import Verif.Proofs.DerivAct
import Verif.Proofs.DerivL2
import Verif.Proofs.InplaceRun
import Mathlib.Analysis.Complex.ExponentialBounds

/-! tests/jacobians.py: sequences of tests, and the layers whose `jacobian` differs from autograd's. -/

namespace NNJ
namespace Tests
open Tensor Matrix

theorem Near.refl (u : ℝ) : Near u u := by
  simp only [Near, sub_self, abs_zero]
  positivity

section
variable {s s' : List Nat} {n k p B : Nat} {N : Net s n s' k p} {st : Store ℝ} {X : Fin B → Fin n → ℝ}

theorem near_unsaturated (hu : ∀ b, N.Unsaturated (N.w st) (X b)) : N.NearInput st X ∧ N.NearWeight st X := by
  constructor
  · intro b i j
    rw [N.backward_eq _ _ _ (hu b)]
    simp only [single_one_vecMul]
    exact Near.refl _
  · intro b i j
    rw [N.backward_eq _ _ _ (hu b)]
    simp only [single_one_vecMul]
    exact Near.refl _

theorem near_congr {st' : Store ℝ} (h : st'.param = st.param) : (N.NearInput st X → N.NearInput st' X) ∧ (N.NearWeight st X → N.NearWeight st' X) := by
  simp only [Net.NearInput, Net.NearWeight, N.w_congr h]
  exact ⟨id, id⟩

theorem near_softplus (beta thr : ℝ) (ht : 10 ≤ thr) (id : Nat) (hs : size s = n) (hn : 0 < n) : (Net.act (.softplus beta thr) id s n hs hn).NearInput st X := by
  intro b i j
  have e1 : (Net.act (.softplus beta thr) id s n hs hn).sem.J ((Net.act (.softplus beta thr) id s n hs hn).w st) (X b) i j =
      if i = j then (Act.softplus beta thr).deriv (X b i) else 0 := by
    simp [Net.sem, Act.sem, Sem.leaf0, Sem.leaf, diagonal_apply]
  have e2 : ((Net.act (.softplus beta thr) id s n hs hn).backward ((Net.act (.softplus beta thr) id s n hs hn).w st) (X b) (Pi.single i 1)).1 j =
      if i = j then (Act.softplus beta thr).backward (X b i) else 0 := by
    simp only [Net.backward]
    by_cases h : i = j
    · subst h; simp
    · rw [Pi.single_eq_of_ne (Ne.symm h), if_neg h, zero_mul]
  rw [e1, e2]
  by_cases hij : i = j
  · rw [if_pos hij, if_pos hij]
    by_cases h : thr < X b i * beta
    · rw [show (Act.softplus beta thr).backward (X b i) = 1 from if_pos h]
      obtain ⟨h1, h2, h3⟩ := softplus_gap h
      have h4 : Real.exp (-thr) ≤ 1 / 10000 := by
        have : Real.exp (-thr) ≤ Real.exp (-10) := Real.exp_le_exp.2 (by linarith)
        refine this.trans ?_
        have h5 : (27 / 10 : ℝ) ≤ Real.exp 1 := by have := Real.exp_one_gt_d9; linarith
        have h6 : Real.exp 10 = Real.exp 1 ^ 10 := by rw [← Real.exp_nat_mul]; norm_num
        have h7 : (10000 : ℝ) ≤ Real.exp 10 := by
          rw [h6]
          refine le_trans ?_ (pow_le_pow_left₀ (by norm_num) h5 10)
          norm_num
        rw [Real.exp_neg, ← one_div]
        exact one_div_le_one_div_of_le (by norm_num) h7
      simp only [Near]
      rw [abs_sub_comm, h1, abs_of_pos h2]
      have : (0 : ℝ) ≤ 1 / 100000 * |1| := by positivity
      linarith
    · rw [Act.backward_eq (.softplus beta thr) (X b i) (not_lt.1 h)]
      exact Near.refl _
  · rw [if_neg hij, if_neg hij]
    exact Near.refl _

theorem l2_entry (eps : ℝ) {x : Fin n → ℝ} (h : norm2 x ≠ 0) (i j : Fin n) : l2Backward eps x (Pi.single i 1) j = l2Deriv eps x i j := by
  simp only [l2Backward, l2Deriv]
  rw [if_neg h, show (∑ m, (Pi.single i 1 : Fin n → ℝ) m * x m) = x i from by simp [Pi.single_apply]]
  rw [show (Pi.single i 1 : Fin n → ℝ) j = if i = j then 1 else 0 by rw [Pi.single_apply]; simp only [eq_comm]]
  simp only [div_eq_mul_inv, mul_inv, ← inv_pow, one_mul]
  ring

theorem abs_le_norm2 (x : Fin n → ℝ) (i : Fin n) : |x i| ≤ norm2 x := by
  refine Real.abs_le_sqrt ?_
  rw [_root_.sq]
  exact Finset.single_le_sum (f := fun i => x i * x i) (fun i _ => mul_self_nonneg _) (Finset.mem_univ i)

theorem near_l2norm (eps : ℝ) (h0 : 0 ≤ eps) (id : Nat) (hs : size s = n) (hl : s.length ≤ 8) (hn : 0 < n) (hr : ∀ b, norm2 (X b) ≠ 0 ∧ eps ≤ 1 / 10000 * norm2 (X b) ^ 2) :
    (Net.l2norm id eps s n hs hl hn).NearInput st X := by
  intro b i j
  obtain ⟨h, hr⟩ := hr b
  have hp : 0 < norm2 (X b) := lt_of_le_of_ne (norm2_nonneg _) (Ne.symm h)
  have e := l2_distance (eps := eps) h (by positivity) i j
  rw [show (Net.l2norm id eps s n hs hl hn).sem.J ((Net.l2norm id eps s n hs hl hn).w st) (X b) i j = (l2Sem eps n).J (fun _ => 0) (X b) i j from rfl,
    show ((Net.l2norm id eps s n hs hl hn).backward ((Net.l2norm id eps s n hs hl hn).w st) (X b) (Pi.single i 1)).1 j = l2Deriv eps (X b) i j from l2_entry eps h i j, Near, e]
  have hx : |X b i * X b j| ≤ norm2 (X b) * norm2 (X b) := by
    rw [abs_mul]
    exact mul_le_mul (abs_le_norm2 _ i) (abs_le_norm2 _ j) (abs_nonneg _) hp.le
  have h1 : |eps * (X b i * X b j) / (norm2 (X b) * (norm2 (X b) + eps) ^ 3)| ≤ 1 / 10000 := by
    have hq : 0 < norm2 (X b) * (norm2 (X b) + eps) ^ 3 := by positivity
    rw [abs_div, abs_of_pos hq, div_le_iff₀ hq, abs_mul, abs_of_nonneg h0]
    have hc : norm2 (X b) ^ 3 ≤ (norm2 (X b) + eps) ^ 3 := pow_le_pow_left₀ hp.le (by linarith) 3
    calc eps * |X b i * X b j| ≤ (1 / 10000 * norm2 (X b) ^ 2) * (norm2 (X b) * norm2 (X b)) := by gcongr
      _ = 1 / 10000 * (norm2 (X b) * norm2 (X b) ^ 3) := by ring
      _ ≤ 1 / 10000 * (norm2 (X b) * (norm2 (X b) + eps) ^ 3) := by gcongr
  have : 0 ≤ 1 / 100000 * |l2Deriv eps (X b) i j| := by positivity
  linarith

theorem not_near_l2norm (eps : ℝ) (h0 : 0 < eps) (h1 : eps < 1000) (id : Nat) (hs : size s = 1) (hl : s.length ≤ 8) {X : Fin B → Fin 1 → ℝ} (b : Fin B)
    (hb : |X b 0| = eps) : ¬ (Net.l2norm id eps s 1 hs hl Nat.one_pos).NearInput st X := by
  intro hN
  have hr : norm2 (X b) = eps := by rw [← hb]; simp [norm2, Real.sqrt_mul_self_eq_abs]
  have h := hN b 0 0
  have hne : norm2 (X b) ≠ 0 := by rw [hr]; exact h0.ne'
  rw [show (Net.l2norm id eps s 1 hs hl Nat.one_pos).sem.J ((Net.l2norm id eps s 1 hs hl Nat.one_pos).w st) (X b) 0 0 = (l2Sem eps 1).J (fun _ => 0) (X b) 0 0 from rfl,
    show ((Net.l2norm id eps s 1 hs hl Nat.one_pos).backward ((Net.l2norm id eps s 1 hs hl Nat.one_pos).w st) (X b) (Pi.single 0 1)).1 0 = l2Deriv eps (X b) 0 0 from l2_entry eps hne 0 0, Near,
    l2_distance hne (by rw [hr]; positivity)] at h
  have hx : X b 0 * X b 0 = eps * eps := by rw [← abs_mul_abs_self, hb]
  have e1 : eps * (X b 0 * X b 0) / (norm2 (X b) * (norm2 (X b) + eps) ^ 3) = 1 / (8 * eps) := by
    rw [hx, hr]; field_simp; ring
  have e2 : l2Deriv eps (X b) 0 0 = 1 / (4 * eps) := by
    simp only [l2Deriv]
    rw [hx, hr, if_pos trivial]; field_simp; ring
  rw [e1, e2, abs_of_pos (by positivity), abs_of_pos (by positivity)] at h
  have h2 : (1 : ℝ) / (8 * eps) * eps = 1 / 8 := by field_simp
  have h3 : (1 : ℝ) / (4 * eps) * eps = 1 / 4 := by field_simp
  have := mul_le_mul_of_nonneg_right h h0.le
  rw [h2, add_mul, mul_assoc, h3] at this
  linarith

end

theorem JacJob.Ready.of_wiring {j : JacJob} {st st' : Store ℝ} {ps : List Nat} (h : j.Ready st ps) (hp : st'.param = st.param) (hw : Wiring st st') (hh : st'.hooks = st.hooks) :
    j.Ready st' ps := by
  refine ⟨h.ok.of_wiring hw, by rw [hh]; exact h.top, h.pos, h.batch, h.params, ?_⟩
  have := h.near
  split at this
  · exact (near_congr hp).1 this
  · split at this
    · rename_i e; rw [if_pos e]; exact this
    · rename_i e; rw [if_neg e]; exact ⟨this.1, (near_congr hp).2 this.2⟩

theorem runJac_run (js : List JacJob) {ps : List Nat} : ∀ {st : Store ℝ} {buf : Grads}, (∀ j ∈ js, j.Ready st ps) → buf.Clean st ps →
    ∃ buf' st', runJac js buf st = (.ok buf', st') ∧ buf'.Clean st ps ∧ st'.param = st.param ∧ st'.hooks = st.hooks := by
  induction js with
  | nil => intro st buf _ hb; exact ⟨buf, st, rfl, hb, rfl, rfl⟩
  | cons j js ih =>
    intro st buf h hb
    have hj := h j (by simp)
    have key : ∃ buf' st', j.run buf st = (.ok buf', st') ∧ buf'.Clean st ps ∧ Sit j.net st st' := by
      have hn := hj.near
      cases hw : j.weight with
      | false =>
        rw [hw] at hn
        obtain ⟨st', S, h1, _⟩ := jacInput_net hj.ok hj.top hj.pos hj.batch
        have e : j.run buf = (jacInput j.net.mod j.net.autograd j.x >>= fun _ => pure buf) := by simp only [JacJob.run, hw]
        exact ⟨buf, st', by rw [e, Prog.bind_ok (h1 hn)]; rfl, hb, S⟩
      | true =>
        rw [hw] at hn
        have e : j.run buf = jacWeight j.net.mod j.net.autograd j.x buf := by simp only [JacJob.run, hw]
        rw [e]
        dsimp only at hn
        split at hn
        · rename_i hp
          obtain ⟨st', S, e⟩ := jacWeight_net_none (buf := buf) hj.ok hj.top hj.pos hj.batch hp hn
          exact ⟨buf, st', e, hb, S⟩
        · rename_i hp
          obtain ⟨st', buf', S, hc, h1, _⟩ := jacWeight_net hj.ok hj.top hj.pos hj.batch hj.params (by omega) hn.1 hb
          exact ⟨buf', st', h1 hn.2, hc, S⟩
    obtain ⟨buf1, st1, e1, hb1, S⟩ := key
    obtain ⟨buf2, st2, e2, hb2, hp, hh⟩ := ih (st := st1) (buf := buf1) (fun i hi => (h i (by simp [hi])).of_wiring S.step.param S.step.wiring S.step.hooks)
      (by unfold Grads.Clean at *; rw [S.step.param]; exact hb1)
    refine ⟨buf2, st2, ?_, by unfold Grads.Clean at *; rw [← S.step.param]; exact hb2, hp.trans S.step.param, hh.trans S.step.hooks⟩
    simp only [runJac]
    rw [Prog.bind_ok e1, e2]

end Tests
end NNJ
