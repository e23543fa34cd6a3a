import Verif.Proofs.ConvCore
import Verif.Model.Conv2d

/-! The convolutions inside `Conv2d`, as sums. -/

namespace NNJ
open Tensor
namespace Conv2d

/-- the product of a cotangent image `V` with the Jacobian wrt the kernel entry `(i, j)` -/
noncomputable def wp (h1 w1 h2 w2 ph pw : Nat) (X V : Nat → Nat → ℝ) (i j : Nat) : ℝ :=
  ∑ r ∈ Finset.range h2, ∑ s ∈ Finset.range w2, V r s * Torch.padGet h1 w1 X ((r + i : Nat) - (ph : Int)) ((s + j : Nat) - (pw : Int))

/-- correlation of the reversed cotangent with the reversed input -/
theorem conv_flip {h1 w1 h2 w2 kh kw ph pw : Nat} (e1 : h2 + kh = h1 + 2 * ph + 1) (e2 : w2 + kw = w1 + 2 * pw + 1)
    (X V : Nat → Nat → ℝ) (i j : Nat) :
    (∑ u ∈ Finset.range h1, ∑ v ∈ Finset.range w1,
      Torch.padGet h2 w2 (fun y z => V (h2 - 1 - y) (w2 - 1 - z)) ((i + u : Nat) - ((kh : Int) - 1 - (ph : Int)))
        ((j + v : Nat) - ((kw : Int) - 1 - (pw : Int))) * X (h1 - 1 - u) (w1 - 1 - v)) = wp h1 w1 h2 w2 ph pw X V i j := by
  have r1 : (∑ u ∈ Finset.range h1, ∑ v ∈ Finset.range w1,
      Torch.padGet h2 w2 (fun y z => V (h2 - 1 - y) (w2 - 1 - z)) ((i + u : Nat) - ((kh : Int) - 1 - (ph : Int)))
        ((j + v : Nat) - ((kw : Int) - 1 - (pw : Int))) * X (h1 - 1 - u) (w1 - 1 - v))
      = ∑ u ∈ Finset.range h1, ∑ v ∈ Finset.range w1, ∑ r ∈ Finset.range h2, ∑ s ∈ Finset.range w2,
        if (u : Int) = (r + i : Nat) - (ph : Int) ∧ (v : Int) = (s + j : Nat) - (pw : Int) then V r s * X u v else 0 := by
    rw [← Finset.sum_range_reflect (n := h1)]
    refine Finset.sum_congr rfl fun u hu => ?_
    rw [← Finset.sum_range_reflect (n := w1)]
    refine Finset.sum_congr rfl fun v hv => ?_
    simp only [Finset.mem_range] at hu hv
    rw [padGet_sum, Finset.sum_mul, ← Finset.sum_range_reflect (n := h2)]
    refine Finset.sum_congr rfl fun r hr => ?_
    rw [Finset.sum_mul, ← Finset.sum_range_reflect (n := w2)]
    refine Finset.sum_congr rfl fun s hs => ?_
    simp only [Finset.mem_range] at hr hs
    have a1 : h1 - 1 - (h1 - 1 - u) = u := by omega
    have a2 : w1 - 1 - (w1 - 1 - v) = v := by omega
    have a3 : h2 - 1 - (h2 - 1 - r) = r := by omega
    have a4 : w2 - 1 - (w2 - 1 - s) = s := by omega
    rw [a1, a2, a3, a4, ite_mul, zero_mul]
    refine if_congr ?_ rfl rfl
    omega
  rw [r1]
  simp only [wp, padGet_sum, Finset.mul_sum, mul_ite, mul_zero]
  -- reorder the sums
  rw [Finset.sum_congr rfl fun u _ => Finset.sum_comm]
  rw [Finset.sum_comm]
  refine Finset.sum_congr rfl fun r _ => ?_
  rw [Finset.sum_congr rfl fun u _ => Finset.sum_comm]
  rw [Finset.sum_comm]

variable {cfg : Cfg} {h1 w1 h2 w2 kh kw ph pw c1 c2 : Nat}

/-- what the theorems assume of the hyper-parameters and sizes -/
structure Fits (cfg : Cfg) (h1 w1 h2 w2 kh kw ph pw : Nat) : Prop where
  kernel : cfg.kernel = (kh, kw)
  stride : cfg.stride = (1, 1)
  padding : cfg.padding = (ph, pw)
  dilation : cfg.dilation = (1, 1)
  groups : cfg.groups = 1
  pkh : 0 < kh
  pkw : 0 < kw
  lph : ph < kh
  lpw : pw < kw
  ph1 : 0 < h1
  pw1 : 0 < w1
  ph2 : 0 < h2
  pw2 : 0 < w2
  eh : h2 + kh = h1 + 2 * ph + 1
  ew : w2 + kw = w1 + 2 * pw + 1

theorem convLen_one {h k o : Nat} {p : Int} (e : (o : Int) + k = h + 2 * p + 1) : Torch.convLen h k 1 p 1 = o := by
  unfold Torch.convLen
  have : ((h : Int) + 2 * p - ((1 : Nat) : Int) * ((k : Int) - 1) - 1) / ((1 : Nat) : Int) + 1 = (h : Int) + 2 * p - (k - 1) - 1 + 1 := by
    rw [Nat.cast_one, Int.ediv_one]; ring
  rw [this]; omega

/-- the convolution of the weight products -/
theorem dwConv (hf : Fits cfg h1 w1 h2 w2 kh kw ph pw) {n : Nat} {m inp : Tensor ℝ} {V : Nat → Nat → Nat → ℝ} {X : Nat → Nat → Nat → ℝ}
    (hm : N4 m n 1 h2 w2 fun a _ y z => V a (h2 - 1 - y) (w2 - 1 - z)) (hi : N4 inp c1 1 h1 w1 fun c _ u v => X c (h1 - 1 - u) (w1 - 1 - v)) :
    Ret (Torch.conv2d m inp none cfg.dwArgs) fun r => N4 r n c1 kh kw fun a c i j => wp h1 w1 h2 w2 ph pw (X c) (V a) i j := by
  obtain ⟨k1, k2, k3, k4, k5, k6, k7, k8, k9, k10, k11, k12, k13, k14, k15⟩ := hf
  have ea : cfg.dwArgs = { stride := (1, 1), padding := ((kh : Int) - 1 - ph, (kw : Int) - 1 - pw), dilation := (1, 1), groups := 1 } := by
    simp only [Cfg.dwArgs, Cfg.dwPadding, computeReversedPadding, k1, k2, k3, k4, k5]
  rw [ea]
  have key := conv2d_spec (a := { stride := (1, 1), padding := ((kh : Int) - 1 - ph, (kw : Int) - 1 - pw), dilation := (1, 1), groups := 1 })
    (b := none) (oh := kh) (ow := kw) hm hi (by simp) rfl rfl Nat.one_pos Nat.one_pos (by simp only; omega) (by simp only; omega) k6 k7
    (convLen_one (by simp only; omega)) (convLen_one (by simp only; omega))
  refine key.mono fun r hr => hr.congr fun a c i j _ _ _ _ => ?_
  simp only [biasAt, add_zero, Finset.sum_range_one, Nat.mul_one]
  exact conv_flip k14 k15 (X c) (V a) i j

theorem vjpSingle_spec (hf : Fits cfg h1 w1 h2 w2 kh kw ph pw) {m inp : Tensor ℝ} {V : Nat → Nat → Nat → ℝ} {X : Nat → Nat → Nat → ℝ}
    (hm : N4 m c2 1 h2 w2 fun a _ y z => V a (h2 - 1 - y) (w2 - 1 - z)) (hi : N4 inp c1 1 h1 w1 fun c _ u v => X c (h1 - 1 - u) (w1 - 1 - v)) :
    Ret (vjpSingle cfg c1 c2 h2 w2 m inp) fun r => r.shape = [c2 * c1 * kh * kw] ∧ ∀ o c i j, o < c2 → c < c1 → i < kh → j < kw →
      r.data (((o * c1 + c) * kh + i) * kw + j) = wp h1 w1 h2 w2 ph pw (X c) (V o) i j := by
  have h2p := hf.ph2; have w2p := hf.pw2
  simp only [vjpSingle]
  refine (reshapeInfer_data (q := c2) (by simp [size_cons]; exact ⟨h2p, w2p⟩) (by rw [hm.numel]; simp [size_cons]; ring)).bind fun v hv => ?_
  have hv4 : N4 v c2 1 h2 w2 fun a _ y z => V a (h2 - 1 - y) (w2 - 1 - z) := N4.of_data hv.1 fun i j k l h1 h2 h3 h4 => by
    rw [hv.2]; exact hm.data h1 h2 h3 h4
  refine (dwConv hf hv4 hi).bind fun r hr => ?_
  rw [hf.kernel]
  refine (reshape_data (by rw [hr.numel]; simp [size_cons])).mono fun q hq => ⟨hq.1, fun o c i j ho hc hi hj => ?_⟩
  rw [hq.2]; exact hr.data ho hc hi hj

theorem mjpSingle_spec (hf : Fits cfg h1 w1 h2 w2 kh kw ph pw) {rows : Nat} {m inp : Tensor ℝ} {V : Nat → Nat → Nat → Nat → ℝ}
    {X : Nat → Nat → Nat → ℝ}
    (hm : N5 m c2 1 h2 w2 rows fun a _ y z q => V a q (h2 - 1 - y) (w2 - 1 - z))
    (hi : N4 inp c1 1 h1 w1 fun c _ u v => X c (h1 - 1 - u) (w1 - 1 - v)) :
    Ret (mjpSingle cfg c1 c2 h2 w2 rows m inp) fun r => r.shape = [c2 * c1 * kh * kw, rows] ∧
      ∀ o c i j q, o < c2 → c < c1 → i < kh → j < kw → q < rows →
        r.data ((((o * c1 + c) * kh + i) * kw + j) * rows + q) = wp h1 w1 h2 w2 ph pw (X c) (V o q) i j := by
  have h2p := hf.ph2; have w2p := hf.pw2
  simp only [mjpSingle]
  refine (movedim_5_last hm).bind fun m1 h1' => ?_
  refine (reshapeInfer_data (q := c2 * rows) (by simp [size_cons]; exact ⟨h2p, w2p⟩) (by rw [h1'.numel]; simp [size_cons]; ring)).bind fun v hv => ?_
  -- rows of the reshaped tensor are pairs (channel, row)
  have hv4 : N4 v (c2 * rows) 1 h2 w2 fun a _ y z => V (a / rows) (a % rows) (h2 - 1 - y) (w2 - 1 - z) := N4.of_data hv.1 fun a j k l ha hj hk hl => by
    obtain ⟨o, q, ho, hq, rfl⟩ := exists_pair ha
    have hr : 0 < rows := by omega
    rw [hv.2, h1'.data ho hq hj hk hl, Nat.mul_comm o rows, Nat.mul_add_div hr, Nat.div_eq_of_lt hq, Nat.mul_add_mod, Nat.mod_eq_of_lt hq,
      Nat.add_zero]
  refine (dwConv hf hv4 hi).bind fun r hr => ?_
  rw [hf.kernel]
  refine (reshape_data (by rw [hr.numel]; simp [size_cons]; ring)).bind fun q hq => ?_
  have hq5 : N5 q c2 rows c1 kh kw fun o q c i j => wp h1 w1 h2 w2 ph pw (X c) (V o q) i j := N5.of_data hq.1 fun o q c i j ho hq' hc hi hj => by
    have hr' : 0 < rows := by omega
    rw [hq.2, hr.data (lt_pair ho hq') hc hi hj, Nat.mul_comm o rows, Nat.mul_add_div hr', Nat.div_eq_of_lt hq', Nat.mul_add_mod, Nat.mod_eq_of_lt hq',
      Nat.add_zero]
  refine (movedim_5_back hq5).bind fun q2 h2' => ?_
  refine (reshape_data (by rw [h2'.numel]; simp [size_cons])).mono fun q3 h3 => ⟨h3.1, fun o c i j q ho hc hi hj hq => ?_⟩
  rw [h3.2]; exact h2'.data ho hc hi hj hq

theorem weightDiagSingle_spec (hf : Fits cfg h1 w1 h2 w2 kh kw ph pw) {m inp : Tensor ℝ} {V : Nat → Nat → Nat → ℝ} {X : Nat → Nat → Nat → ℝ}
    (hm : N4 m c2 1 h2 w2 fun a _ y z => V (c2 - 1 - a) (h2 - 1 - y) (w2 - 1 - z))
    (hi : N4 inp c1 1 h1 w1 fun c _ u v => X (c1 - 1 - c) (h1 - 1 - u) (w1 - 1 - v)) :
    Ret (weightDiagSingle cfg c1 c2 h2 w2 m inp) fun r => r.shape = [c2 * c1 * kh * kw] ∧ ∀ o c i j, o < c2 → c < c1 → i < kh → j < kw →
      r.data (((o * c1 + c) * kh + i) * kw + j) = wp h1 w1 h2 w2 ph pw (X c) (V o) i j := by
  have h2p := hf.ph2; have w2p := hf.pw2
  simp only [weightDiagSingle]
  refine (movedim_4_last hm).bind fun m1 h1' => ?_
  refine (reshapeInfer_data (q := c2) (by simp [size_cons]; exact ⟨h2p, w2p⟩) (by rw [h1'.numel]; simp [size_cons]; ring)).bind fun v hv => ?_
  have hv4 : N4 v c2 1 h2 w2 fun a _ y z => V (c2 - 1 - a) (h2 - 1 - y) (w2 - 1 - z) := N4.of_data hv.1 fun i j k l h1 h2 h3 h4 => by
    rw [hv.2]; exact h1'.data h1 h2 h3 h4
  refine (dwConv hf (V := fun a => V (c2 - 1 - a)) (X := fun c => X (c1 - 1 - c)) hv4 hi).bind fun r hr => ?_
  rw [hf.kernel]
  refine (reshape_data (by rw [hr.numel]; simp [size_cons]; ring)).bind fun q hq => ?_
  have hq4 : N4 q c2 c1 kh kw fun o c i j => wp h1 w1 h2 w2 ph pw (X (c1 - 1 - c)) (V (c2 - 1 - o)) i j :=
    N4.of_data hq.1 fun o c i j ho hc hi hj => by rw [hq.2]; exact hr.data ho hc hi hj
  refine (movedim_4_back hq4).bind fun q2 h2' => (flip_4_01 h2').bind fun q3 h3 => ?_
  refine (reshape_data (by rw [h3.numel]; simp [size_cons])).mono fun q4 h4 => ⟨h4.1, fun o c i j ho hc hi hj => ?_⟩
  rw [h4.2, h3.data ho hc hi hj]
  have a1 : c1 - 1 - (c1 - 1 - c) = c := by omega
  have a2 : c2 - 1 - (c2 - 1 - o) = o := by omega
  rw [a1, a2]

/-- the loop version: rows filled one after the other -/
theorem fillRows_spec {f : Nat → Res (Tensor ℝ)} {n : Nat} {s : List Nat} {G : Nat → Nat → ℝ} {z : Tensor ℝ} (hz : z.shape = n :: s)
    (h : ∀ i, i < n → Ret (f i) fun r => r.shape = s ∧ ∀ k, k < size s → r.data k = G i k) :
    Ret (fillRows f n z) fun r => r.shape = n :: s ∧ ∀ i k, i < n → k < size s → r.data (i * size s + k) = G i k := by
  have key : ∀ m, m ≤ n → Ret ((List.range m).foldlM (fun t i => do
        let r ← f i
        t.setRow i r) z : Res (Tensor ℝ)) fun r => r.shape = n :: s ∧ ∀ i k, i < m → k < size s → r.data (i * size s + k) = G i k := by
    intro m
    induction m with
    | zero => exact fun _ => Ret.ok ⟨hz, fun i k hi => absurd hi (Nat.not_lt_zero _)⟩
    | succ m ih =>
      intro hm
      rw [List.range_succ, List.foldlM_append]
      refine (ih (by omega)).bind fun t ht => ?_
      simp only [List.foldlM_cons, List.foldlM_nil]
      obtain ⟨r, hr, hr'⟩ := h m (by omega)
      simp only [hr, Res.bind_ok, Tensor.setRow, ht.1, hr'.1, if_true, show m < n by omega]
      refine Ret.ok ⟨rfl, fun i k hi hk => ?_⟩
      have hpos : 0 < size s := by omega
      have ed : (i * size s + k) / size s = i := by
        rw [Nat.mul_comm, Nat.mul_add_div hpos, Nat.div_eq_of_lt hk, Nat.add_zero]
      have em : (i * size s + k) % size s = k := by
        rw [Nat.mul_comm, Nat.mul_add_mod, Nat.mod_eq_of_lt hk]
      simp only [ed, em]
      split_ifs with hc
      · subst hc; exact hr'.2 k hk
      · exact ht.2 i k (by omega) hk
  exact key n (Nat.le_refl _)

/-- both ways of batching, for a property of the entries of each sample's result -/
theorem fillRows_spec' {f : Nat → Res (Tensor ℝ)} {n : Nat} {s : List Nat} {P : Nat → (Nat → ℝ) → Prop} {z : Tensor ℝ} (hz : z.shape = n :: s)
    (h : ∀ i, i < n → Ret (f i) fun r => r.shape = s ∧ P i r.data) :
    Ret (fillRows f n z) fun r => r.shape = n :: s ∧ ∀ i, i < n → ∃ d, P i d ∧ ∀ k, k < size s → r.data (i * size s + k) = d k := by
  have : Nonempty (Tensor ℝ) := ⟨⟨[], fun _ => 0⟩⟩
  choose! R h1 h2 h3 using h
  exact (fillRows_spec (G := fun i k => (R i).data k) hz fun i hi => ⟨R i, h1 i hi, h2 i hi, fun _ _ => rfl⟩).mono
    fun r hr => ⟨hr.1, fun i hi => ⟨_, h3 i hi, fun k hk => hr.2 i k hi hk⟩⟩

theorem vmap2_spec' {f : Tensor ℝ → Tensor ℝ → Res (Tensor ℝ)} {x y : Tensor ℝ} {n : Nat}
    {s1 s2 s : List Nat} {P : Nat → (Nat → ℝ) → Prop} (hn : 0 < n) (hx : x.shape = n :: s1) (hy : y.shape = n :: s2)
    (h : ∀ i, i < n → Ret (x.select0 i >>= fun a => y.select0 i >>= fun b => f a b) fun r => r.shape = s ∧ P i r.data) :
    Ret (vmap2 f x y) fun r => r.shape = n :: s ∧ ∀ i, i < n → ∃ d, P i d ∧ ∀ k, k < size s → r.data (i * size s + k) = d k := by
  have : Nonempty (Tensor ℝ) := ⟨⟨[], fun _ => 0⟩⟩
  choose! R h1 h2 h3 using h
  exact (vmap2_spec (G := fun i k => (R i).data k) hn hx hy fun i hi => ⟨R i, h1 i hi, h2 i hi, fun _ _ => rfl⟩).mono
    fun r hr => ⟨hr.1, fun i hi => ⟨_, h3 i hi, fun k hk => hr.2 i k hi hk⟩⟩

end Conv2d
end NNJ
