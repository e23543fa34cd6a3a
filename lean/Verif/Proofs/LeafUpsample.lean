import Verif.Proofs.Spatial

/-! Upsample meets the contract (reverse mode). -/

namespace NNJ
open Tensor Matrix
namespace Upsample

variable {c h w s : Nat}

/-- the sandwich by disjoint squares -/
theorem jTmjpFull_spec {B : Nat} {t : Tensor ℝ} {Z : Fin B → Matrix (Fin (c * (h * s) * (w * s))) (Fin (c * (h * s) * (w * s))) ℝ}
    (hh : 0 < h) (hw : 0 < w) (hs : 0 < s)
    (ht : IsMat t B (c * (h * s) * (w * s)) (c * (h * s) * (w * s)) Z) :
    Ret (jTmjpFull ⟨s, 1⟩ B c h w (h * s) (w * s) t) fun r =>
      IsMat r B (c * h * w) (c * h * w) fun b => (upJ c h w s)ᵀ * Z b * upJ c h w s := by
  have hn : t.numel = B * (c * (h * s) * (w * s)) * (c * (h * s) * (w * s)) := by
    rw [Tensor.numel, ht.1]; simp [size_cons]; ring
  simp only [jTmjpFull]
  refine (reshape_data (by rw [hn]; simp [size_cons]; ring)).bind fun t1 h1 => ?_
  have n1 : N5 t1 B c (h * s * (w * s)) c (h * s * (w * s)) fun b a q a' q' =>
      t.data ((((b * c + a) * (h * s * (w * s)) + q) * c + a') * (h * s * (w * s)) + q') :=
    N5.of_data h1.1 fun b a q a' q' _ _ _ _ _ => by rw [h1.2]
  refine (movedim_5_23 n1).bind fun t2 h2 => ?_
  refine (pool_spec hh hw hs (by rw [h2.numel]; ring)).bind fun t3 h3 => ?_
  refine (reshape_data (by rw [h3.1]; simp [size_cons]; ring)).bind fun t4 h4 => ?_
  have n4 : N3 t4 (B * c * c) (h * s * (w * s)) (h * w) fun g q p => t3.data ((g * (h * s * (w * s)) + q) * (h * w) + p) :=
    N3.of_data h4.1 fun g q p _ _ _ => by rw [h4.2]
  refine (movedim_3_swap n4).bind fun t5 h5 => ?_
  refine (pool_spec hh hw hs (by rw [h5.numel]; ring)).bind fun t6 h6 => ?_
  refine (reshape_data (by rw [h6.1]; simp [size_cons]; ring)).bind fun t7 h7 => ?_
  have n7 : N3 t7 (B * c * c) (h * w) (h * w) fun g q p => t6.data ((g * (h * w) + q) * (h * w) + p) :=
    N3.of_data h7.1 fun g q p _ _ _ => by rw [h7.2]
  refine (movedim_3_swap n7).bind fun t8 h8 => ?_
  refine (reshape_data (by rw [h8.numel]; simp [size_cons]; ring)).bind fun t9 h9 => ?_
  have n9 : N5 t9 B c c (h * w) (h * w) fun b a a' q p => t6.data ((((b * c + a) * c + a') * (h * w) + p) * (h * w) + q) :=
    N5.of_data h9.1 fun b a a' q p hb ha ha' hq hp => by rw [h9.2, h8.data (lt_pair (lt_pair hb ha) ha') hq hp]
  refine (movedim_5_23 n9).bind fun t10 h10 => ?_
  refine (reshape_data (by rw [h10.numel]; simp [size_cons]; ring)).mono fun r hr => isMat_img hr.1 fun b i a' y' z' => ?_
  obtain ⟨a, y, z, rfl⟩ := pix_surj i
  have e0 : (((b : Nat) * (c * h * w) + pix a y z) * c + a') * h * w + y' * w + z'
      = ((((b : Nat) * c + a) * (h * w) + (y * w + z)) * c + a') * (h * w) + (y' * w + z') := by
    rw [pix_val]; ring
  have hb := b.2; have ha := a.2; have ha' := a'.2; have hy := y.2; have hz := z.2; have hy' := y'.2; have hz' := z'.2
  have key : r.data ((((b : Nat) * (c * h * w) + pix a y z) * c + a') * h * w + y' * w + z')
      = ∑ u ∈ Finset.range s, ∑ v ∈ Finset.range s, ∑ u' ∈ Finset.range s, ∑ v' ∈ Finset.range s,
        t.data (((((b : Nat) * c + a) * (h * s * (w * s)) + ((y * s + u) * (w * s) + (z * s + v))) * c + a') * (h * s * (w * s))
          + ((y' * s + u') * (w * s) + (z' * s + v'))) := by
    rw [e0, hr.2, h10.data hb ha (lt_pair hy hz) ha' (lt_pair hy' hz')]
    have e1 : (((b : Nat) * c + a) * c + a') * (h * w) + (y' * w + z') < B * c * c * h * w := by
      rw [Nat.mul_assoc (B * c * c)]; exact lt_pair (lt_pair (lt_pair hb ha) ha') (lt_pair hy' hz')
    have e2 := h6.2 _ _ _ e1 hy hz
    rw [show (((((b : Nat) * c + a) * c + a') * (h * w) + (y' * w + z')) * h + y) * w + z
      = (((((b : Nat) * c + a) * c + a') * (h * w) + (y' * w + z')) * (h * w) + (y * w + z)) by ring] at e2
    rw [e2]
    refine Finset.sum_congr rfl fun u hu => Finset.sum_congr rfl fun v hv => ?_
    simp only [Finset.mem_range] at hu hv
    have l1 := lt_pair hy hu
    have l2 := lt_pair hz hv
    have e3 := h5.data (lt_pair (lt_pair hb ha) ha') (lt_pair hy' hz') (lt_pair l1 l2)
    rw [show (((((b : Nat) * c + a) * c + a') * (h * w) + (y' * w + z')) * (h * s * (w * s)) + ((y * s + u) * (w * s) + (z * s + v)))
      = (((((b : Nat) * c + a) * c + a') * (h * w) + (y' * w + z')) * (h * s) + (y * s + u)) * (w * s) + (z * s + v) by ring] at e3
    rw [e3]
    have e4 : (((b : Nat) * c + a) * c + a') * (h * s * (w * s)) + ((y * s + u) * (w * s) + (z * s + v)) < B * c * c * (h * s) * (w * s) := by
      rw [Nat.mul_assoc (B * c * c)]; exact lt_pair (lt_pair (lt_pair hb ha) ha') (lt_pair l1 l2)
    have e5 := h3.2 _ _ _ e4 hy' hz'
    rw [show (((((b : Nat) * c + a) * c + a') * (h * s * (w * s)) + ((y * s + u) * (w * s) + (z * s + v))) * h + y') * w + z'
      = (((((b : Nat) * c + a) * c + a') * (h * s * (w * s)) + ((y * s + u) * (w * s) + (z * s + v))) * (h * w) + (y' * w + z')) by ring] at e5
    rw [e5]
    refine Finset.sum_congr rfl fun u' hu' => Finset.sum_congr rfl fun v' hv' => ?_
    simp only [Finset.mem_range] at hu' hv'
    have e6 := h2.data hb ha ha' (lt_pair l1 l2) (lt_pair (lt_pair hy' hu') (lt_pair hz' hv'))
    rw [← e6]; congr 1; ring
  have e0' : (((b : Nat) * (c * h * w) + pix a y z) * c + a') * h * w + y' * w + z' = ((((b : Nat) * (c * h * w) + pix a y z) * c + a') * h + y') * w + z' := by ring
  rw [← e0', key]
  rw [Matrix.mul_assoc, mul_apply]
  simp only [transpose_apply]
  have f1 : ∀ k, upJ c h w s k (pix a y z) * (Z b * upJ c h w s) k (pix a' y' z')
      = (∑ u' ∈ Finset.range s, ∑ v' ∈ Finset.range s, t.data (((b : Nat) * (c * (h * s) * (w * s)) + k) * (c * (h * s) * (w * s))
          + ((a' * (h * s) + (y' * s + u')) * (w * s) + (z' * s + v')))) * upJ c h w s k (pix a y z) := by
    intro k
    rw [mul_comm, mul_upJ]
    congr 1
    rw [← sum_upJ_nat (F := fun y z => t.data (((b : Nat) * (c * (h * s) * (w * s)) + k) * (c * (h * s) * (w * s))
          + ((a' * (h * s) + y) * (w * s) + z))) (g := Z b k)]
    intro y2 z2
    rw [← ht.img]
    congr 1; ring
  rw [Finset.sum_congr rfl fun k _ => f1 k]
  rw [← sum_upJ_nat (F := fun y z => ∑ u' ∈ Finset.range s, ∑ v' ∈ Finset.range s, t.data (((b : Nat) * (c * (h * s) * (w * s))
      + ((a * (h * s) + y) * (w * s) + z)) * (c * (h * s) * (w * s)) + ((a' * (h * s) + (y' * s + u')) * (w * s) + (z' * s + v'))))
      (g := fun k : Fin (c * (h * s) * (w * s)) => ∑ u' ∈ Finset.range s, ∑ v' ∈ Finset.range s, t.data (((b : Nat) * (c * (h * s) * (w * s)) + k) * (c * (h * s) * (w * s))
          + ((a' * (h * s) + (y' * s + u')) * (w * s) + (z' * s + v'))))]
  · refine Finset.sum_congr rfl fun u _ => Finset.sum_congr rfl fun v _ => Finset.sum_congr rfl fun u' _ => Finset.sum_congr rfl fun v' _ => ?_
    congr 1; ring
  · intro y2 z2
    simp only [pix_val]

theorem _root_.NNJ.Ret.some' {β γ : Type} {p : Res β} {f : β → Res γ} {P : γ → Prop} (h : Ret (p >>= f) P) :
    Ret (p >>= fun r => some <$> f r) (IsSome P) := by
  cases p with
  | error e => obtain ⟨r, hr, _⟩ := h; cases hr
  | ok a => exact Ret.some (p := f a) h

theorem leafB_upsample (hh : 0 < h) (hw : 0 < w) (hs : 0 < s) :
    LeafB (layer ⟨s, 1⟩) [c, h, w] (c * h * w) [c, h * s, w * s] (c * (h * s) * (w * s)) 0
      (fun x k => x (upSrc k)) (fun _ => upJ c h w s) (fun _ => 0) := by
  have hf : ∀ {B : Nat} {X : Fin B → Fin (c * h * w) → ℝ} {x : Tensor ℝ}, IsBatch x B [c, h, w] (c * h * w) X →
    Ret (forward ⟨s, 1⟩ x) fun v => IsBatch v B [c, h * s, w * s] (c * (h * s) * (w * s)) fun b k => X b (upSrc k) :=
    fun hx => forward_spec hh hw hs hx
  have hmjp : ∀ {B X x val r A Z}, IsBatch x B [c, h, w] (c * h * w) X →
      (∀ v ∈ val, IsBatch v B [c, h * s, w * s] (c * (h * s) * (w * s)) fun b k => X b (upSrc k)) →
      IsMat A B r (c * (h * s) * (w * s)) Z → Ret (mjpSome ⟨s, 1⟩ x val A .input)
        (IsSome fun t => IsMat t B r (c * h * w) fun b => Z b * upJ c h w s) := by
    intro B X x val r A Z hx hv hA
    simp only [mjpSome]
    refine (getVal_spec hh hw hs hx hv).bind fun v hv' => ?_
    have hd : ∀ {i d}, [B, r, c * (h * s) * (w * s)][i]? = some d → A.dim i = .ok d := by
      intro i d hi; simp only [Tensor.dim, hA.1, hi]
    simp only [hx.dims4, hv'.dims4, Res.bind_ok, assertR, hd (i := 0) rfl, hd (i := 1) rfl, hd (i := 2) rfl, and_self]
    exact (pool_mat hh hw hs hA).some'
  refine {
    forward := fun _ hx => hf hx, jacI := fun hB hx => ?_, jacW := fun hB hx => optW_zero
    vjpI := fun hB hx hv hu => ?_, vjpW := fun hB hx hv hu => optW_zero, mjpI := fun hB hx hv hr hA => hmjp hx hv hA
    mjpW := fun hB hx hv hr hA => optW_zero, jTI := fun fd td hB hx hv hA => ?_, jTW := fun fd td hB hx hv hA => ?_
    jT_db := rfl }
  · simp only [layer, jacobian, getVal]
    refine (hf hx).bind fun v hv' => ?_
    simp only [hx.dims4, hv'.dims4, Res.bind_ok, assertR]
    have h1 : ∀ B, IsVec (ones [B, c * (h * s) * (w * s)] : Tensor ℝ) B (c * (h * s) * (w * s)) fun _ _ => 1 := fun B => ⟨rfl, fun _ _ => rfl⟩
    refine (diagEmbed_vec (h1 _)).bind fun r hr => (hmjp (val := some v) hx (by simpa using hv') hr).mono fun t ht => ht.mono fun t ht => ht.congr fun b i j => ?_
    have : (diagonal (fun _ => 1) : Matrix (Fin (c * (h * s) * (w * s))) _ ℝ) = 1 := diagonal_one
    rw [this, Matrix.one_mul]
  · simp only [layer, vjp]
    refine (getVal_spec hh hw hs hx hv).bind fun v hv' => ?_
    simp only [hx.dims4, hv'.dims4, Res.bind_ok, assertR, hu.1]
    exact (pool_vec hh hw hs hu).some'
  · simp only [layer, jTmjp]
    refine (getVal_spec hh hw hs hx hv).bind fun v hv' => ?_
    cases fd <;> cases td
    · simp only [hx.dims4, hv'.dims4, Res.bind_ok, Res.pure_eq, assertR, hA.1, Bool.false_eq_true, if_false]
      exact (jTmjpFull_spec hh hw hs hA).some
    · simp only [hx.dims4, hv'.dims4, Res.bind_ok, Res.pure_eq, assertR, hA.1, Bool.false_eq_true, if_false]
      exact (jTmjpFull_spec hh hw hs hA).bind fun r hr => (diagonal12_mat hr).some
    · obtain ⟨d, hd, hZ⟩ := hA
      simp only [hx.dims4, hv'.dims4, Res.bind_ok, Res.pure_eq, assertR, if_true, hd.1]
      exact (diagEmbed_vec hd).bind fun r hr => ((jTmjpFull_spec hh hw hs hr).mono fun t ht => ht.congr fun b i j => by rw [hZ]).some
    · obtain ⟨d, hd, hZ⟩ := hA
      simp only [hx.dims4, hv'.dims4, Res.bind_ok, Res.pure_eq, assertR, if_true, hd.1]
      refine Ret.some' ((pool_vec hh hw hs hd).mono fun t ht => ?_)
      refine IsVec.congr ht fun b i => ?_
      simp only [hZ]
      rw [diag_sandwichT]
      congr 2
      funext k m
      simp only [sq, upJ]
      split_ifs <;> simp
  · simp only [layer, jTmjp]
    refine (getVal_spec hh hw hs hx hv).bind fun v hv' => ?_
    cases fd
    · simp only [hx.dims4, hv'.dims4, Res.bind_ok, Res.pure_eq, assertR, hA.1, Bool.false_eq_true, if_false]
      exact optW_zero
    · obtain ⟨d, hd, hZ⟩ := hA
      simp only [hx.dims4, hv'.dims4, Res.bind_ok, Res.pure_eq, assertR, if_true, hd.1]
      exact optW_zero

end Upsample
end NNJ
