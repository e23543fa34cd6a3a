import Verif.Proofs.NetGood
import Verif.Spec.Broadcast

/-! Vectors whose number of rows is not the batch size: the layers. -/

namespace NNJ
open Tensor Matrix

/-- `einsum("bi,bi->bi")` of operands with different numbers of rows -/
theorem ein_bi_bi_rows {u v : Tensor ℝ} {R B n : Nat} {U : Fin R → Fin n → ℝ} {D : Fin B → Fin n → ℝ} (hR : 0 < R) (hB : 0 < B)
    (hu : IsVec u R n U) (hv : IsVec v B n D) (h : R = 1 ∨ B = 1 ∨ R = B) :
    Ret (einsum% "bi,bi->bi" [u, v]) fun r => IsVec r (if R = 1 then B else R) n fun b i => U (rowOr0 hR b) i * D (rowOr0 hB b) i := by
  have hd : labelDim (labelPairs [['b', 'i'], ['b', 'i']] [u, v]) 'b' = if R = 1 then B else R := by
    simp only [labelPairs, hu.1, hv.1, labelDim, List.zip_cons_cons, List.zip_nil_right, List.cons_append, List.nil_append]
    simp
    split_ifs <;> omega
  have hi : labelDim (labelPairs [['b', 'i'], ['b', 'i']] [u, v]) 'i' = n := by
    simp only [labelPairs, hu.1, hv.1, labelDim, List.zip_cons_cons, List.zip_nil_right, List.cons_append, List.nil_append]
    simp
    intro h; exact h.symm
  have hr : ranksOk [['b', 'i'], ['b', 'i']] [u, v] = true := by simp [ranksOk, hu.1, hv.1]
  have ho : operandsDiagOk [['b', 'i'], ['b', 'i']] [u, v] = true := by simp [operandsDiagOk, diagOk, hu.1, hv.1]
  have hall : (labelPairs [['b', 'i'], ['b', 'i']] [u, v]).all
      (fun q => decide (q.2 = 1 ∨ q.2 = labelDim (labelPairs [['b', 'i'], ['b', 'i']] [u, v]) q.1)) = true := by
    rw [List.all_eq_true]
    intro q hq
    have hq' : q = ('b', R) ∨ q = ('i', n) ∨ q = ('b', B) ∨ q = ('i', n) := by
      simpa [labelPairs, hu.1, hv.1] using hq
    rw [decide_eq_true_eq]
    rcases hq' with rfl | rfl | rfl | rfl
    · rw [hd]; dsimp only; split_ifs <;> omega
    · rw [hi]; exact .inr rfl
    · rw [hd]; dsimp only; split_ifs <;> omega
    · rw [hi]; exact .inr rfl
  unfold einsum
  rw [hr, ho]
  simp only [Bool.and_self, if_true]
  rw [if_pos hall]
  refine Ret.ok ⟨by simp only [ofFn_shape, List.map, hd, hi], fun b i => ?_⟩
  rw [get_ofFn _ (by simp only [List.map, hd, hi]; simp)]
  have hc : contracted ['b', 'i'] [['b', 'i'], ['b', 'i']].flatten [] = [] := by simp [contracted]
  have e1 : ∀ (r : Nat) (hr : 0 < r) (b : Nat) (z : Fin r → Fin n → ℝ) (t : Tensor ℝ), IsVec t r n z → b < r ∨ r = 1 →
      t.get [if r = 1 then 0 else b, if n = 1 then 0 else (i : Nat)] = z (rowOr0 hr b) i := by
    intro r hr b z t ht hb
    have hn : (if n = 1 then 0 else (i : Nat)) = i := by split_ifs <;> omega
    have hb' : (if r = 1 then 0 else b) = (rowOr0 hr b : Nat) := by
      simp only [rowOr0]; split_ifs <;> dsimp only <;> omega
    rw [hn, hb', ht.2]
  have hb : (b : Nat) < if R = 1 then B else R := b.2
  simp only [hc, sumLabels, List.zip_cons_cons, List.zip_nil_right, operandsProd, operandIdx, hu.1, hv.1, prodList, envGet]
  simp only [if_true, show ('b' = 'i') = False by decide, if_false, mul_one]
  rw [e1 R hR b U u hu (by split_ifs at hb <;> omega), e1 B hB b D v hv (by split_ifs at hb <;> omega)]

/-- and when they do not fit -/
theorem ein_bi_bi_bad {u v : Tensor ℝ} {R B n : Nat} {U : Fin R → Fin n → ℝ} {D : Fin B → Fin n → ℝ} (hu : IsVec u R n U)
    (hv : IsVec v B n D) (h1 : R ≠ 1) (h2 : B ≠ 1) (h : R ≠ B) : einsum% "bi,bi->bi" [u, v] = .error .shape := by
  have hd : labelDim (labelPairs [['b', 'i'], ['b', 'i']] [u, v]) 'b' = R := by
    simp [labelPairs, hu.1, hv.1, labelDim, h1]
  have h4 : ¬ ((labelPairs [['b', 'i'], ['b', 'i']] [u, v]).all
      (fun q => decide (q.2 = 1 ∨ q.2 = labelDim (labelPairs [['b', 'i'], ['b', 'i']] [u, v]) q.1)) = true) := by
    intro h4
    rw [List.all_eq_true] at h4
    have := h4 ('b', B) (by simp [labelPairs, hu.1, hv.1])
    rw [hd] at this
    simp [h2] at this
    exact h this.symm
  unfold einsum
  dsimp only
  rw [if_neg h4, ite_self]

/-- `einsum("bj,jk->bk")` with a size 1 along the contracted dimension -/
theorem ein_bj_jk_gen {u W : Tensor ℝ} {R w o i : Nat} {V : Fin R → Fin w → ℝ} (hu : IsVec u R w V) (hW : W.shape = [o, i])
    (h : w = o ∨ w = 1 ∨ o = 1) : ∃ t, einsum% "bj,jk->bk" [u, W] = .ok t ∧ t.shape = [R, i] ∧
      ∀ (r : Fin R) (j : Fin i), t.get [r, j] = ∑ c ∈ Finset.range (if w = 1 then o else w),
        u.get [r, if w = 1 then 0 else c] * W.get [if o = 1 then 0 else c, j] := by
  have hb : labelDim (labelPairs [['b', 'j'], ['j', 'k']] [u, W]) 'b' = R := by
    simp [labelPairs, hu.1, hW, labelDim]
    intro h; exact h.symm
  have hj : labelDim (labelPairs [['b', 'j'], ['j', 'k']] [u, W]) 'j' = if w = 1 then o else w := by
    simp [labelPairs, hu.1, hW, labelDim]
    split_ifs <;> omega
  have hk : labelDim (labelPairs [['b', 'j'], ['j', 'k']] [u, W]) 'k' = i := by
    simp [labelPairs, hu.1, hW, labelDim]
    intro h; exact h.symm
  have hr : ranksOk [['b', 'j'], ['j', 'k']] [u, W] = true := by simp [ranksOk, hu.1, hW]
  have ho : operandsDiagOk [['b', 'j'], ['j', 'k']] [u, W] = true := by simp [operandsDiagOk, diagOk, hu.1, hW]
  have hall : (labelPairs [['b', 'j'], ['j', 'k']] [u, W]).all
      (fun q => decide (q.2 = 1 ∨ q.2 = labelDim (labelPairs [['b', 'j'], ['j', 'k']] [u, W]) q.1)) = true := by
    rw [List.all_eq_true]
    intro q hq
    have hq' : q = ('b', R) ∨ q = ('j', w) ∨ q = ('j', o) ∨ q = ('k', i) := by
      simpa [labelPairs, hu.1, hW] using hq
    rw [decide_eq_true_eq]
    rcases hq' with rfl | rfl | rfl | rfl
    · rw [hb]; exact .inr rfl
    · rw [hj]; dsimp only; split_ifs <;> omega
    · rw [hj]; dsimp only; split_ifs <;> omega
    · rw [hk]; exact .inr rfl
  unfold einsum
  rw [hr, ho]
  simp only [Bool.and_self, if_true]
  rw [if_pos hall]
  refine ⟨_, rfl, by simp only [ofFn_shape, List.map, hb, hk], fun r j => ?_⟩
  rw [get_ofFn _ (by simp only [List.map, hb, hk]; simp)]
  have hc : contracted ['b', 'k'] [['b', 'j'], ['j', 'k']].flatten [] = ['j'] := by simp [contracted]
  have e1 : (if R = 1 then 0 else (r : Nat)) = r := by split_ifs <;> omega
  have e2 : (if i = 1 then 0 else (j : Nat)) = j := by split_ifs <;> omega
  simp only [hc, sumLabels, hj]
  rw [sumRange_eq, Finset.sum_range]
  refine Finset.sum_congr rfl fun c _ => ?_
  simp only [List.zip_cons_cons, List.zip_nil_right, operandsProd, operandIdx, hu.1, hW, prodList, envGet]
  simp only [if_true, show ('b' = 'k') = False by decide, show ('j' = 'b') = False by decide, show ('j' = 'k') = False by decide, if_false, mul_one, e1, e2]

theorem ein_bj_jk_bad {u W : Tensor ℝ} {R w o i : Nat} {V : Fin R → Fin w → ℝ} (hu : IsVec u R w V) (hW : W.shape = [o, i])
    (h1 : w ≠ o) (h2 : w ≠ 1) (h3 : o ≠ 1) : einsum% "bj,jk->bk" [u, W] = .error .shape := by
  have hj : labelDim (labelPairs [['b', 'j'], ['j', 'k']] [u, W]) 'j' = w := by
    simp [labelPairs, hu.1, hW, labelDim, h2]
  have h4 : ¬ ((labelPairs [['b', 'j'], ['j', 'k']] [u, W]).all
      (fun q => decide (q.2 = 1 ∨ q.2 = labelDim (labelPairs [['b', 'j'], ['j', 'k']] [u, W]) q.1)) = true) := by
    intro h4
    rw [List.all_eq_true] at h4
    have := h4 ('j', o) (by simp [labelPairs, hu.1, hW])
    rw [hj] at this
    simp [h3] at this
    exact h1 this.symm
  unfold einsum
  dsimp only
  rw [if_neg h4, ite_self]

theorem einsum_rank {ins : List (List Char)} {out : List Char} {ops : List (Tensor ℝ)} (h : ranksOk ins ops = false) :
    einsum ins out ops = .error .shape := by
  unfold einsum
  rw [h]
  simp

/-- the diagonal an elementwise layer works with -/
theorem act_diag (a : Act) {s : List Nat} {n : Nat} (hs : size s = n) : ∃ fwd jac, a.layer = AbstractDiagonal.defaults fwd jac ∧
    ∀ {B X x val}, 0 < B → IsBatch x B s n X → (∀ v ∈ val, IsBatch v B s n (fun b i => a.fn (X b i))) →
      Ret (jac x val .input true) (IsSome fun t => IsVec t B n fun b i => a.deriv (X b i)) := by
  have key : ∀ (g : ℝ → ℝ) (diagOf : Tensor ℝ → Tensor ℝ → Tensor ℝ), (∀ z, g z = a.fn z) →
      (∀ {B X x v}, IsBatch x B s n X → IsBatch v B s n (fun b i => a.fn (X b i)) → IsBatch (diagOf x v) B s n fun b i => a.deriv (X b i)) →
      ∃ fwd jac, Activation.layer g diagOf = AbstractDiagonal.defaults fwd jac ∧ ∀ {B X x val}, 0 < B → IsBatch x B s n X →
        (∀ v ∈ val, IsBatch v B s n (fun b i => a.fn (X b i))) →
        Ret (jac x val .input true) (IsSome fun t => IsVec t B n fun b i => a.deriv (X b i)) := by
    intro g diagOf hg hd
    refine ⟨_, _, rfl, fun {B X x val} hB hx hv => ?_⟩
    have hf : ∀ {B X x}, 0 < B → IsBatch x B s n X →
        Ret (.ok (x.map g) : Res (Tensor ℝ)) fun v => IsBatch v B s n fun b i => a.fn (X b i) :=
      fun _ hx => Ret.ok ((hx.map g).congr fun b i => hg _)
    obtain ⟨v, ⟨rfl, h1⟩ | ⟨rfl, h1⟩, hv'⟩ := val_cases (f := fun x i => a.fn (x i)) hf hB hx hv
    · exact Ret.sok (b := v) rfl (Ret.sok hv'.dim0 ((reshapeInfer_batch (hd hx hv') hs hB).bind fun r hr => Ret.ok hr))
    · exact Ret.sok h1 (Ret.sok hv'.dim0 ((reshapeInfer_batch (hd hx hv') hs hB).bind fun r hr => Ret.ok hr))
  cases a with
  | relu =>
    refine key _ _ (fun z => ?_) fun hx hv => (hv.map _).congr fun b i => ?_
    · simp only [Act.fn, Activation.reluF]
      split_ifs with h
      · exact (max_eq_right h.le).symm
      · exact (max_eq_left (not_lt.1 h)).symm
    simp only [Act.fn, Act.deriv]
    split_ifs <;> simp_all
  | sigmoid => exact key _ _ (fun _ => rfl) fun hx hv => (hv.map _).congr fun b i => rfl
  | tanh => exact key _ _ (fun _ => rfl) fun hx hv => (hv.map _).congr fun b i => rfl
  | sinusoidal => exact key _ _ (fun _ => rfl) fun hx hv => (hx.map _).congr fun b i => rfl
  | softplus β t => exact key _ _ (fun _ => rfl) fun hx hv => (hx.map _).congr fun b i => rfl
  | custom f g =>
    refine key _ _ (fun _ => rfl) fun hx hv => ⟨hv.1, fun b i => ?_⟩
    show g _ _ = g _ _
    rw [hx.2, hv.2]; rfl
  | truncExp =>
    refine key _ _ (fun _ => rfl) fun hx hv => (hx.map _).congr fun b i => ?_
    simp only [Activation.clamp15, Act.deriv, Nat.cast_ofNat]
    congr 1
    split_ifs with h1 h2
    · rw [min_eq_right (by linarith), max_eq_left h1.le]
    · rw [min_eq_left h2.le, max_eq_right (by norm_num)]
    · rw [min_eq_right (not_lt.1 h2), max_eq_right (not_lt.1 h1)]

end NNJ
