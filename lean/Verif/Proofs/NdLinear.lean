import Verif.Proofs.UpFrac
import Verif.Proofs.BroadcastLeaf
import Verif.Proofs.LeafLinear
import Verif.Spec.NdLinear

/-! Linear layers on samples with several axes. -/

namespace NNJ
open Tensor Matrix Upsample

namespace Linear
variable {W x : Tensor ℝ} {bias : Option (Tensor ℝ)} {B i o : Nat} {t : List Nat}

theorem nd_dims2 (hx : x.shape = B :: (t ++ [i])) (ht : t ≠ []) : x.dims2 = .error .value := by
  cases t with
  | nil => exact absurd rfl ht
  | cons a t => cases t <;> simp [dims2, hx]

theorem nd_length (hx : x.shape = B :: (t ++ [i])) (ht : t ≠ []) : 3 ≤ x.shape.length := by
  have := List.length_pos_of_ne_nil ht
  rw [hx]; simp; omega

theorem mul_self_eq (x : Tensor ℝ) : x.mul x = .ok ⟨x.shape, fun k => x.data k * x.data k⟩ := by
  simp only [Tensor.mul, zipWithB, if_true]

theorem nd_jacobian (hx : x.dims2 = .error .value) (val : Option (Tensor ℝ)) (wrt : Wrt) : jacobian W bias x val wrt = .error .value := by
  unfold jacobian
  rw [hx]
  rfl

theorem nd_jvp (hx : x.dims2 = .error .value) (val : Option (Tensor ℝ)) (nP : Nat) (v : Tensor ℝ) : jvp W bias nP x val v .weight = .error .value := by
  unfold jvp
  simp only
  rw [hx]
  rfl

theorem nd_jmp (hx : x.dims2 = .error .value) (val : Option (Tensor ℝ)) (nP : Nat) (m : Option (Tensor ℝ)) :
    jmp W bias nP x val m .weight = .error .value := by
  unfold jmp
  cases m with
  | none => exact nd_jacobian hx val .weight
  | some m =>
    simp only
    rw [hx]
    rfl

theorem nd_vjp (hx : x.dims2 = .error .value) (val : Option (Tensor ℝ)) (v : Tensor ℝ) : vjp W bias x val v .weight = .error .value := by
  unfold vjp
  simp only
  rw [hx]
  rfl

theorem nd_mjp (hx : x.dims2 = .error .value) (val : Option (Tensor ℝ)) (m : Option (Tensor ℝ)) : mjp W bias x val m .weight = .error .value := by
  unfold mjp
  cases m with
  | none => exact nd_jacobian hx val .weight
  | some m =>
    simp only
    rw [hx]
    rfl

theorem nd_weightFull (hx : x.dims2 = .error .value) (val : Tensor ℝ) (nP : Nat) (m : Tensor ℝ) : Fails (jmjTpWeightFull W bias nP x val m) := by
  unfold jmjTpWeightFull
  refine Fails.right _ fun mT => ?_
  rw [nd_jmp hx]
  exact ⟨_, rfl⟩

theorem nd_weightDiag (hx : 3 ≤ x.shape.length) (val m : Tensor ℝ) : Fails (jmjTpWeightDiag bias x val m) := by
  unfold jmjTpWeightDiag
  refine Fails.right _ fun _ => Fails.right _ fun _ => Fails.right _ fun _ => ?_
  have e : ∀ M : Tensor ℝ, einsum% "bi,bji->bj" [⟨x.shape, fun k => x.data k * x.data k⟩, M] = .error .shape := fun M => by
    refine einsum_rank ?_
    simp only [ranksOk, List.length_cons, List.length_nil]
    rw [decide_eq_false (by omega)]; rfl
  rw [mul_self_eq]
  simp only [Res.bind_ok]
  cases bias with
  | none =>
    refine Fails.right _ fun M => ?_
    rw [e]; exact ⟨_, rfl⟩
  | some b =>
    refine Fails.right _ fun M => Fails.right _ fun M => ?_
    rw [e]; exact ⟨_, rfl⟩

theorem nd_jmjTp (h1 : x.dims2 = .error .value) (h2 : 3 ≤ x.shape.length) (val : Option (Tensor ℝ)) (nP : Nat) (m : Option (Tensor ℝ)) (fd td db : Bool) :
    Fails (jmjTp W bias nP x val m .weight fd td db) := by
  unfold jmjTp
  refine Fails.right _ fun y => ?_
  cases m with
  | none =>
    refine Fails.right _ fun b => ?_
    simp only [Res.pure_eq, Res.bind_ok]
    cases td
    · exact (nd_weightDiag h2 y _).left
    · exact (nd_weightDiag h2 y _).map
  | some M =>
    simp only [Res.pure_eq, Res.bind_ok]
    cases fd <;> cases td
    · exact nd_weightFull h1 y nP M
    · exact (nd_weightFull h1 y nP M).left
    · exact (nd_weightDiag h2 y M).left
    · exact (nd_weightDiag h2 y M).map

theorem nd_jTmjp (h1 : x.dims2 = .error .value) (h2 : 3 ≤ x.shape.length) (val : Option (Tensor ℝ)) (m : Option (Tensor ℝ)) (fd td db : Bool) :
    Fails (jTmjp W bias x val m .weight fd td db) := by
  unfold jTmjp
  refine Fails.right _ fun y => ?_
  have r1 : ∀ M : Tensor ℝ, einsum% "bj,bi->bij" [⟨x.shape, fun k => x.data k * x.data k⟩, M] = .error .shape := fun M => by
    refine einsum_rank ?_
    simp only [ranksOk, List.length_cons, List.length_nil]; rw [decide_eq_false (by omega)]; rfl
  have r2 : ∀ M : Tensor ℝ, einsum% "bj,bii->bij" [⟨x.shape, fun k => x.data k * x.data k⟩, M] = .error .shape := fun M => by
    refine einsum_rank ?_
    simp only [ranksOk, List.length_cons, List.length_nil]; rw [decide_eq_false (by omega)]; rfl
  cases m with
  | none =>
    cases td
    · simp only
      rw [h1]
      exact ⟨_, rfl⟩
    · simp only
      refine Fails.right _ fun bs => ?_
      rw [mul_self_eq, Res.bind_ok, r1]
      exact ⟨_, rfl⟩
  | some M =>
    cases fd <;> cases td
    · simp only
      refine Fails.right _ fun mT => ?_
      rw [nd_mjp h1]
      exact ⟨_, rfl⟩
    · simp only
      split
      · rw [Res.bind_ok, mul_self_eq, Res.bind_ok, r2]
        exact ⟨_, rfl⟩
      · exact ⟨_, rfl⟩
    · simp only
      rw [h1]
      exact ⟨_, rfl⟩
    · simp only
      refine Fails.right _ fun bs => ?_
      rw [mul_self_eq, Res.bind_ok, r1]
      exact ⟨_, rfl⟩

/-- `matrix=None` with respect to the input -/
theorem nd_jmjTp_none (h2 : 3 ≤ x.shape.length) (val : Option (Tensor ℝ)) (nP : Nat) (fd td db : Bool) :
    Fails (jmjTp W bias nP x val none .input fd td db) := by
  unfold jmjTp
  refine Fails.right _ fun y => ?_
  have e : decide (2 = (onesLike x).shape.length) = false := decide_eq_false (by show 2 ≠ x.shape.length; omega)
  cases td <;> simp only <;> refine Fails.map ?_ <;> refine ⟨.shape, einsum_rank ?_⟩ <;>
    simp only [ranksOk, List.length_cons, List.length_nil] <;> rw [e] <;> simp

theorem nd_jTmjp_none {val : Option (Tensor ℝ)} (hv : ∀ y, getVal W bias x val = .ok y → 3 ≤ y.shape.length) (fd td db : Bool) :
    Fails (jTmjp W bias x val none .input fd td db) := by
  unfold jTmjp
  cases hy : getVal W bias x val with
  | error e => exact ⟨e, rfl⟩
  | ok y =>
    have := hv y hy
    have e : decide (2 = (onesLike y).shape.length) = false := decide_eq_false (by show 2 ≠ y.shape.length; omega)
    rw [Res.bind_ok]
    cases td <;> simp only <;> refine Fails.map ?_ <;> refine ⟨.shape, einsum_rank ?_⟩ <;>
      simp only [ranksOk, List.length_cons, List.length_nil] <;> rw [e] <;> simp

/-! ### forward -/

theorem nd_forward (hW : W.shape = [o, i]) (ho : 0 < o) (hb : ∀ b ∈ bias, b.shape = [o]) {X : Fin B → Fin (size t * i) → ℝ}
    (hx : IsBatch x B (t ++ [i]) (size t * i) X) :
    Ret (forward W bias x) fun v => IsBatch v B (t ++ [o]) (size t * o) fun b a =>
      ∑ j : Fin i, W.data ((finProdFinEquiv.symm a).2 * i + j) * X b (finProdFinEquiv ((finProdFinEquiv.symm a).1, j)) +
        match bias with | some y => y.data (finProdFinEquiv.symm a).2 | none => 0 := by
  have hl : (B :: (t ++ [i])).getLast? = some i := by rw [← List.cons_append, List.getLast?_concat]
  have hd : (B :: (t ++ [i])).dropLast ++ [o] = B :: (t ++ [o]) := by rw [← List.cons_append, List.dropLast_concat]; rfl
  have e0 : ∀ (b : Fin B) (a : Fin (size t * o)), (b : Nat) * (size t * o) + a =
      o * (b * size t + (finProdFinEquiv.symm a).1) + (finProdFinEquiv.symm a).2 := by
    intro b a
    obtain ⟨⟨u, k⟩, rfl⟩ := finProdFinEquiv.surjective a
    simp only [Equiv.symm_apply_apply, finProdFinEquiv_apply_val]
    ring
  have e1 : ∀ (b : Fin B) (a : Fin (size t * o)), ((b : Nat) * (size t * o) + a) / o = b * size t + (finProdFinEquiv.symm a).1 := by
    intro b a
    rw [e0, Nat.mul_add_div ho, Nat.div_eq_of_lt (finProdFinEquiv.symm a).2.2, Nat.add_zero]
  have e2 : ∀ (b : Fin B) (a : Fin (size t * o)), ((b : Nat) * (size t * o) + a) % o = (finProdFinEquiv.symm a).2 := by
    intro b a
    rw [e0, Nat.mul_add_mod, Nat.mod_eq_of_lt (finProdFinEquiv.symm a).2.2]
  have key : ∀ (b : Fin B) (a : Fin (size t * o)),
      (sumRange i fun j => x.data ((((b : ℕ) * (size t * o) + a) / o) * i + j) * W.data ((((b : ℕ) * (size t * o) + a) % o) * i + j)) =
      ∑ j : Fin i, W.data ((finProdFinEquiv.symm a).2 * i + j) * X b (finProdFinEquiv ((finProdFinEquiv.symm a).1, j)) := by
    intro b a
    rw [sumRange_eq, e1, e2]
    refine Finset.sum_congr rfl fun j _ => ?_
    rw [← hx.2, mul_comm]
    congr 2
    rw [finProdFinEquiv_apply_val]
    ring
  cases bias with
  | none =>
    simp only [forward, Torch.linear, hx.1, hW, hl, if_true]
    refine Ret.ok ⟨hd, fun b a => ?_⟩
    dsimp only
    rw [add_zero]
    exact key b a
  | some y =>
    simp only [forward, Torch.linear, hx.1, hW, hl, if_true, hb y rfl]
    refine Ret.ok ⟨hd, fun b a => ?_⟩
    dsimp only
    rw [key b a, e2]

/-! ### arguments with one entry per input or output -/

theorem einsum_shape {ins : List (List Char)} {out : List Char} {ops : List (Tensor ℝ)} {r : Tensor ℝ} (h : einsum ins out ops = .ok r) :
    r.shape = out.map (labelDim (labelPairs ins ops)) := by
  unfold einsum at h
  split at h
  · simp only at h
    split at h
    · cases h; rfl
    · cases h
  · cases h

theorem einsum_dims {ins : List (List Char)} {out : List Char} {ops : List (Tensor ℝ)} {q : Char × Nat} (hq : q ∈ labelPairs ins ops)
    (h1 : q.2 ≠ 1) (h2 : q.2 ≠ labelDim (labelPairs ins ops) q.1) : einsum ins out ops = .error .shape := by
  unfold einsum
  split
  · simp only
    rw [if_neg]
    intro h
    have := List.all_eq_true.1 h q hq
    simp only [decide_eq_true_eq] at this
    rcases this with h | h
    · exact h1 h
    · exact h2 h
  · rfl

theorem ite_one (n : Nat) : (if n = 1 then 1 else n) = n := by split_ifs with h <;> simp [h]

/-- the einsum of a Linear layer gives a result of shape `q`; and if the layer is wider than one it raises -/
def Misfit (w : Nat) (r : Res (Tensor ℝ)) (q : List Nat) : Prop := (∀ y, r = .ok y → y.shape = q) ∧ (w ≠ 1 → r = .error .shape)

theorem mul_ne_one' {T w : Nat} (hT : 2 ≤ T) : T * w ≠ 1 := fun h => by
  have := Nat.eq_one_of_mul_eq_one_right h; omega

theorem mul_ne_self' {T w : Nat} (hT : 2 ≤ T) (hw : 0 < w) : T * w ≠ w := fun h => by
  have := Nat.mul_le_mul_right w hT; omega

/-- the label `c` has size `T * w` in one operand and `w` in another -/
macro "misfit " q:term:max " [" hs:Lean.Parser.Tactic.simpLemma,* "]" : tactic =>
  `(tactic| (
    refine ⟨fun y hy => ?_, fun hw => ?_⟩
    · rw [einsum_shape hy]
      simp [labelPairs, labelDim, ite_one, $hs,*]
    · refine einsum_dims (q := $q) (by simp [labelPairs, $hs,*]) ?_ ?_
      · first | exact hw | exact mul_ne_one' (by assumption)
      · simp [labelPairs, labelDim, hw, $hs,*]))

section
variable {v : Tensor ℝ} {T q : Nat}

theorem misfit_jvp (hW : W.shape = [o, i]) (hv : v.shape = [B, T * i]) (hi : 0 < i) (hT : 2 ≤ T) : Misfit i (einsum% "kj,bj->bk" [W, v]) [B, o] := by
  misfit ('j', T * i) [hW, hv, mul_ne_self' hT hi]

theorem misfit_jmp (hW : W.shape = [o, i]) (hv : v.shape = [B, T * i, q]) (hi : 0 < i) (hT : 2 ≤ T) :
    Misfit i (einsum% "kj,bji->bki" [W, v]) [B, o, q] := by
  misfit ('j', T * i) [hW, hv, mul_ne_self' hT hi]

theorem misfit_jmj (hW : W.shape = [o, i]) (fd td : Bool) (hv : v.shape = if fd then [B, T * i] else [B, T * i, T * i]) (hi : 0 < i) (hT : 2 ≤ T) :
    Misfit i (match (generalizing := false) fd, td with
    | false, false => einsum% "mn,bnj,kj->bmk" [W, v, W]
    | true, false => einsum% "mn,bn,kn->bmk" [W, v, W]
    | false, true => einsum% "mn,bnj,mj->bm" [W, v, W]
    | true, true => einsum% "mn,bn,mn->bm" [W, v, W]) (if td then [B, o] else [B, o, o]) := by
  cases fd <;> cases td <;> simp only [if_true, if_false, Bool.false_eq_true] at hv ⊢
  all_goals misfit ('n', T * i) [hW, hv, mul_ne_self' hT hi]

theorem misfit_vjp (hW : W.shape = [o, i]) (hv : v.shape = [B, T * o]) (ho : 0 < o) (hT : 2 ≤ T) : Misfit o (einsum% "bj,jk->bk" [v, W]) [B, i] := by
  misfit ('j', o) [hW, hv, (mul_ne_self' hT ho).symm, mul_ne_one' hT]

theorem misfit_mjp (hW : W.shape = [o, i]) (hv : v.shape = [B, q, T * o]) (ho : 0 < o) (hT : 2 ≤ T) :
    Misfit o (einsum% "bij,jk->bik" [v, W]) [B, q, i] := by
  misfit ('j', o) [hW, hv, (mul_ne_self' hT ho).symm, mul_ne_one' hT]

theorem misfit_jTmj (hW : W.shape = [o, i]) (fd td : Bool) (hv : v.shape = if fd then [B, T * o] else [B, T * o, T * o]) (ho : 0 < o) (hT : 2 ≤ T) :
    Misfit o (match (generalizing := false) fd, td with
    | false, false => einsum% "nm,bnj,jk->bmk" [W, v, W]
    | true, false => einsum% "nm,bn,nk->bmk" [W, v, W]
    | false, true => einsum% "nm,bnj,jm->bm" [W, v, W]
    | true, true => einsum% "nm,bn,nm->bm" [W, v, W]) (if td then [B, i] else [B, i, i]) := by
  cases fd <;> cases td <;> simp only [if_true, if_false, Bool.false_eq_true] at hv ⊢
  all_goals misfit ('n', T * o) [hW, hv, mul_ne_self' hT ho]

end

end Linear
end NNJ
