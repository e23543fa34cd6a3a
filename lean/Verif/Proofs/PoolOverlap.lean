import Verif.Proofs.PoolGood
import Verif.Spec.Api

/-! MaxPool2d with overlapping windows. -/

namespace NNJ
open Tensor Matrix

/-- assignment into zeros writes some entry of the assigned tensor, or leaves 0 -/
theorem indexPut_bound {s : List Nat} {is : List (Tensor Nat)} {v z : Tensor ℝ} (hz : z.shape = s) (hz0 : ∀ p, z.data p = 0)
    (hl : is.length = s.length) (hsh : ∀ i ∈ is, i.shape = v.shape)
    (hok : ∀ k < v.numel, indexOk s is k = true) {C : ℝ} (h0 : 0 ≤ C) (hC : ∀ k, v.data k ≤ C) :
    Ret (z.indexPut is v) fun r => r.shape = s ∧ ∀ p, r.data p ≤ C := by
  have h1 : is.length = z.shape.length ∧ (is.all fun i => decide (i.shape = v.shape)) = true :=
    ⟨by rw [hz, hl], by simpa using hsh⟩
  have h2 : ((List.range v.numel).all (indexOk z.shape is)) = true := by
    simp only [List.all_eq_true, List.mem_range, hz]; exact hok
  simp only [indexPut, h1, h2, and_self, if_true]
  refine Ret.ok ⟨hz, fun p => ?_⟩
  show (match (List.range v.numel).reverse.find? (fun k => decide (indexPos z.shape is k = p)) with
    | some k => v.data k | none => z.data p) ≤ C
  cases (List.range v.numel).reverse.find? (fun k => decide (indexPos z.shape is k = p)) with
  | none => simp only [hz0]; exact h0
  | some k => exact hC k

namespace MaxPool2d
variable {a : Torch.PoolArgs} {c h w h2 w2 B : Nat} {id : Nat}

section
variable {x val : Tensor ℝ} {idx : Tensor Nat} {X : Fin B → Fin (c * h * w) → ℝ} {Y : Fin B → Fin (c * h2 * w2) → ℝ}

/-- `vjp` returns, whether or not windows overlap, and its entries are entries of the vector, or 0 -/
theorem vjpBody_bound (hf : PoolSizes a h w h2 w2) (hx : IsBatch x B [c, h, w] (c * h * w) X) (hv : IsBatch val B [c, h2, w2] (c * h2 * w2) Y)
    (hi : IdxOk a c h w h2 w2 idx X) {u : Tensor ℝ} (hu : u.shape = [B, c * h2 * w2]) {C : ℝ} (h0 : 0 ≤ C) (hC : ∀ k, u.data k ≤ C) :
    Ret (vjpBody x val u idx) fun r => r.shape = [B, c * h * w] ∧ ∀ p, r.data p ≤ C := by
  simp only [vjpBody, hx.dims4, hv.dims4, Res.bind_ok, assertR, hu]
  have nu : u.numel = B * (c * h2 * w2) := by rw [Tensor.numel, hu]; simp only [size_cons, size_nil]; ring
  have ni : idx.numel = B * (c * h2 * w2) := by rw [Tensor.numel, hi.1]; simp only [size_cons, size_nil]; ring
  have hQ : 0 < h2 * w2 := Nat.mul_pos hf.hh2 hf.hw2
  refine (reshape_data (s := [B * c, h2 * w2]) (by rw [nu]; simp only [size_cons, size_nil]; ring)).bind fun v hv' => ?_
  refine arange_repeat.bind fun ar har => ?_
  refine (reshape_data (s := [B * c, h2 * w2]) (by rw [Tensor.numel, har.1]; simp only [size_cons, size_nil]; ring)).bind fun ar' har' => ?_
  refine (reshape_data (s := [B * c, h2 * w2]) (by rw [ni]; simp only [size_cons, size_nil]; ring)).bind fun ix hix => ?_
  refine (indexPut_bound (s := [B * c, h * w]) (is := [ar', ix]) (v := v) rfl (fun _ => rfl) rfl (by simp [har'.1, hix.1, hv'.1]) ?_ h0
    (fun k => by rw [hv'.2]; exact hC k)).bind fun r hr => ?_
  · intro k hk
    have hk' : k < B * (c * h2 * w2) := by
      rw [Tensor.numel, hv'.1] at hk
      simp only [size_cons, size_nil] at hk
      calc k < _ := hk
        _ = _ := by ring
    obtain ⟨b, j, hb, hj, rfl⟩ := exists_pair hk'
    simp only [indexOk, List.zipWith_cons_cons, List.zipWith_nil_left, List.all_cons, List.all_nil, Bool.and_true, Bool.and_eq_true]
    refine ⟨decide_eq_true ?_, decide_eq_true ?_⟩
    · rw [har'.2, har.2, show b * (c * h2 * w2) + j = h2 * w2 * (b * c) + j by ring, Nat.mul_add_div hQ]
      refine lt_pair hb (Nat.div_lt_of_lt_mul ?_)
      calc j < _ := hj
        _ = _ := by ring
    · rw [hix.2]
      have := hi.2 ⟨b, hb⟩ ⟨j, hj⟩
      simp only at this
      rw [this]; exact poolPos_lt hf _ _
  · refine (reshape_data (s := [B, c * h * w]) (by rw [Tensor.numel, hr.1]; simp only [size_cons, size_nil]; ring)).mono fun r' hr' => ⟨hr'.1, fun p => ?_⟩
    rw [hr'.2]; exact hr.2 p

theorem vjp_bound (hf : PoolSizes a h w h2 w2) (hx : IsBatch x B [c, h, w] (c * h * w) X)
    {u : Tensor ℝ} (hu : u.shape = [B, c * h2 * w2]) {C : ℝ} (h0 : 0 ≤ C) (hC : ∀ k, u.data k ≤ C) (st : Store ℝ) :
    Run ((MaxPool2d.mod a id).vjp x none u .input) st fun r _ => IsSome (fun t => t.shape = [B, c * h * w] ∧ ∀ p, t.data p ≤ C) r := by
  refine Run.bind (forward_run hf hx) fun v s' ⟨hv, hs, hc⟩ => getIdx_run hc fun idx hidx => ?_
  exact Run.bindLift (vjpBody_bound hf hx hv hidx hu h0 hC) fun r hr => Run.pure hr

end

/-- the image that is 1 at flat position `q` of channel 0, and 0 elsewhere -/
noncomputable def spike (c h w q : Nat) : Fin (c * h * w) → ℝ := fun m => if (m : Nat) = q then 1 else 0

/-- every window that contains the spike selects it -/
theorem poolPos_spike (hc : 0 < c) {q : Nat} (hq : q < h * w) {y : Fin h2} {z : Fin w2} (hm : q ∈ Torch.window h w a y z) :
    poolPos a (spike c h w q) (pix (⟨0, hc⟩ : Fin c) y z) = q := by
  have hpl : ∀ q' < h * w, plane (spike c h w q) (⟨0, hc⟩ : Fin c) q' = if q' = q then 1 else 0 := by
    intro q' hq'
    have hlt : 0 * (h * w) + q' < c * h * w := by
      rw [Nat.mul_assoc]; exact lt_pair hc hq'
    simp only [plane, spike]
    rw [dif_pos hlt]
    simp
  have hmem : poolPos a (spike c h w q) (pix (⟨0, hc⟩ : Fin c) y z) ∈ Torch.window h w a y z := by
    have := argmax_mem (plane (spike c h w q) (⟨0, hc⟩ : Fin c)) (l := Torch.window h w a y z) (List.ne_nil_of_mem hm)
    simpa only [poolPos, chan_pix, row_pix, col_pix] using this
  have hlt : poolPos a (spike c h w q) (pix (⟨0, hc⟩ : Fin c) y z) < h * w := by
    obtain ⟨_, _, _, _, yy, hy, zz, hz, _, _, e⟩ := mem_window.1 hmem
    rw [e]; exact lt_pair hy hz
  have hle := le_argmax (plane (spike c h w q) (⟨0, hc⟩ : Fin c)) hm
  have e : poolPos a (spike c h w q) (pix (⟨0, hc⟩ : Fin c) y z) = Torch.argmax (plane (spike c h w q) (⟨0, hc⟩ : Fin c)) (Torch.window h w a y z) := by
    simp only [poolPos, chan_pix, row_pix, col_pix]
  rw [← e, hpl q hq, hpl _ hlt, if_pos rfl] at hle
  by_contra hne
  rw [if_neg hne] at hle
  linarith

/-- with the spike in the windows of two outputs, `vjp` of the vector that is 1 at these outputs is not the product -/
theorem overlap (hc : 0 < c) (hf : PoolSizes a h w h2 w2) {q : Nat} {y y' : Fin h2} {z z' : Fin w2} (hne : ¬ (y = y' ∧ z = z'))
    (hm : q ∈ Torch.window h w a y z) (hm' : q ∈ Torch.window h w a y' z') (st : Store ℝ) :
    ∃ x X v V jt J t, IsBatch x 1 [c, h, w] (c * h * w) X ∧ IsVec v 1 (c * h2 * w2) V ∧
      Returns ((MaxPool2d.mod a id).jacobian x none .input) st (some jt) ∧ IsMat jt 1 (c * h2 * w2) (c * h * w) J ∧
      Returns ((MaxPool2d.mod a id).vjp x none v .input) st (some t) ∧ ¬ IsVec t 1 (c * h * w) fun b => V b ᵥ* J b := by
  have hq : q < h * w := by
    obtain ⟨_, _, _, _, yy, hy, zz, hz, _, _, rfl⟩ := mem_window.1 hm
    exact lt_pair hy hz
  let k1 : Fin (c * h2 * w2) := pix (⟨0, hc⟩ : Fin c) y z
  let k2 : Fin (c * h2 * w2) := pix (⟨0, hc⟩ : Fin c) y' z'
  have hk : k1 ≠ k2 := by
    intro e
    have e1 := congrArg row e
    have e2 := congrArg col e
    simp only [k1, k2, row_pix, col_pix] at e1 e2
    exact hne ⟨e1, e2⟩
  let V : Fin 1 → Fin (c * h2 * w2) → ℝ := fun _ k => if k = k1 ∨ k = k2 then 1 else 0
  let x : Tensor ℝ := ⟨[1, c, h, w], fun i => if i = q then 1 else 0⟩
  let v : Tensor ℝ := ⟨[1, c * h2 * w2], fun i => if i = k1 ∨ i = k2 then 1 else 0⟩
  have hx : IsBatch x 1 [c, h, w] (c * h * w) fun _ => spike c h w q := ⟨rfl, fun b i => by simp [x, spike]⟩
  have hv : IsVec v 1 (c * h2 * w2) V := by
    refine ⟨rfl, fun b i => ?_⟩
    rw [get2 rfl]
    simp [v, V, Fin.ext_iff]
  obtain ⟨r, s1, hr, hJ, _⟩ := jac_run (id := id) (s := st) hf hx
  obtain ⟨r', s2, hr', hT⟩ := vjp_bound (id := id) hf hx (u := v) rfl (C := 1) zero_le_one (fun k => by simp only [v]; split <;> norm_num) st
  cases r with
  | none => exact hJ.elim
  | some jt =>
    cases r' with
    | none => exact hT.elim
    | some t =>
      refine ⟨x, _, v, V, jt, _, t, hx, hv, by rw [Returns, hr], hJ, by rw [Returns, hr'], fun hT' => ?_⟩
      have hqn : q < c * h * w := by
        rw [Nat.mul_assoc]
        calc q = 0 * (h * w) + q := by simp
          _ < _ := lt_pair hc hq
      have h1 := hT'.2 0 ⟨q, hqn⟩
      rw [get2 hT.1] at h1
      have h2 := hT.2 ((0 : Fin 1) * (c * h * w) + (⟨q, hqn⟩ : Fin (c * h * w)))
      rw [h1] at h2
      have h3 : (V 0 ᵥ* poolJ a c h w _ _ (spike c h w q)) ⟨q, hqn⟩ ≤ 1 := h2
      rw [vecMul_poolJ] at h3
      have t1 : tgt a (spike c h w q) k1 = q := by
        simp only [tgt, k1]; rw [poolPos_spike hc hq hm, chan_pix]; simp
      have t2 : tgt a (spike c h w q) k2 = q := by
        simp only [tgt, k2]; rw [poolPos_spike hc hq hm', chan_pix]; simp
      have h4 : ∑ k ∈ ({k1, k2} : Finset (Fin (c * _ * _))), (if q = tgt a (spike c h w q) k then V 0 k else 0) ≤
          ∑ k, if q = tgt a (spike c h w q) k then V 0 k else 0 := by
        refine Finset.sum_le_sum_of_subset_of_nonneg (Finset.subset_univ _) fun k _ _ => ?_
        simp only [V]
        split <;> [split <;> norm_num; norm_num]
      rw [Finset.sum_pair hk, t1, t2, if_pos rfl, if_pos rfl] at h4
      simp only [V, true_or, or_true, if_true] at h4
      linarith

end MaxPool2d
end NNJ
