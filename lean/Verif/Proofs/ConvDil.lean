import Verif.Proofs.ConvGen
import Verif.Proofs.ConvBad
import Verif.Proofs.ConvVmap

/-! Weight-space products of a dilated Conv2d raise. -/

namespace NNJ
open Tensor

theorem Bad.ret {β γ : Type} {p : Res β} {P : β → Prop} {f : β → Res γ} (h : Ret p P) (hf : ∀ b, P b → Bad (f b)) : Bad (p >>= f) := by
  obtain ⟨b, rfl, hb⟩ := h
  exact hf b hb

theorem Bad.mapM0 {β : Type} {f : Nat → Res β} {n : Nat} (hn : 0 < n) (h : Bad (f 0)) : Bad ((List.range n).mapM f) := by
  obtain ⟨m, rfl⟩ := Nat.exists_eq_succ_of_ne_zero (Nat.pos_iff_ne_zero.1 hn)
  rw [List.range_succ_eq_map, List.mapM_cons]
  exact h.bind

theorem Bad.vmap0 {f : Tensor ℝ → Tensor ℝ → Res (Tensor ℝ)} {a b : Tensor ℝ} {n : Nat} {s s' : List Nat} (hn : 0 < n) (ha : a.shape = n :: s)
    (hb : b.shape = n :: s') (h : Bad (a.select0 0 >>= fun u => b.select0 0 >>= fun v => f u v)) : Bad (Tensor.vmap2 f a b) := by
  have e1 : a.dim 0 = .ok n := by simp [Tensor.dim, ha]
  have e2 : b.dim 0 = .ok n := by simp [Tensor.dim, hb]
  simp only [Tensor.vmap2, e1, e2, Res.bind_ok, if_true]
  exact (Bad.mapM0 hn h).bind

theorem Bad.fill0 {f : Nat → Res (Tensor ℝ)} {n : Nat} (hn : 0 < n) (h : Bad (f 0)) (z : Tensor ℝ) : Bad (Conv2d.fillRows f n z) := by
  obtain ⟨m, rfl⟩ := Nat.exists_eq_succ_of_ne_zero (Nat.pos_iff_ne_zero.1 hn)
  rw [Conv2d.fillRows, List.range_succ_eq_map, List.foldlM_cons]
  exact h.bind.bind

theorem Bad.reshape {t : Tensor ℝ} {s : List Nat} (h : size s ≠ t.numel) : Bad (t.reshape s) := by
  rw [Tensor.reshape, if_neg h]; exact ⟨_, rfl⟩

theorem N4.self {t : Tensor ℝ} {a b c d : Nat} (h : t.shape = [a, b, c, d]) : N4 t a b c d fun i j k l => t.data (((i * b + j) * c + k) * d + l) :=
  N4.of_data h fun _ _ _ _ _ _ _ _ => rfl
theorem N5.self {t : Tensor ℝ} {a b c d e : Nat} (h : t.shape = [a, b, c, d, e]) :
    N5 t a b c d e fun i j k l m => t.data ((((i * b + j) * c + k) * d + l) * e + m) :=
  N5.of_data h fun _ _ _ _ _ _ _ _ _ _ => rfl
theorem N3.self {t : Tensor ℝ} {a b c : Nat} (h : t.shape = [a, b, c]) : N3 t a b c fun i j k => t.data ((i * b + j) * c + k) :=
  N3.of_data h fun _ _ _ _ _ _ => rfl

/-- one sample of a batch with an extra dimension -/
theorem Bad.head {m xf : Tensor ℝ} {s2 : List Nat} {a b c d : Nat} {f : Tensor ℝ → Tensor ℝ → Res (Tensor ℝ)} (hx : xf.shape = [a, b, c, d])
    (hm : m.shape = a :: s2) (ha : 0 < a) (h : ∀ xi mi, xi.shape = [1, b, c, d] → m.select0 0 = .ok mi → Bad (f xi mi)) :
    Bad (xf.select0 0 >>= fun a => m.select0 0 >>= fun b => do
      let a ← a.unsqueeze 0
      f a b) := by
  obtain ⟨x1, e1, _⟩ := select0_ret hx ha
  obtain ⟨m1, e2, _⟩ := select0_ret hm ha
  obtain ⟨x2, e3, h3⟩ := selectUnsq_4 (N4.self hx) ha
  rw [e1] at e3 ⊢
  rw [e2]
  simp only [Res.bind_ok] at e3 ⊢
  rw [e3]
  exact h x2 m1 h3.1 e2

theorem unsq {m mi : Tensor ℝ} {a : Nat} {s : List Nat} (hm : m.shape = a :: s) (ha : 0 < a) (h : m.select0 0 = .ok mi) :
    Ret (mi.unsqueeze 0) fun r => r.shape = 1 :: s := by
  obtain ⟨x1, e1, h1⟩ := select0_ret hm ha
  rw [h] at e1; cases e1
  simp only [unsqueeze, h1.1, Nat.zero_le, if_true]
  exact Ret.ok rfl

namespace GConv
variable {g : GConv} {bId : Option Nat}

/-- the dilation is visible: more than one row (or column) in the kernel or in the image, and rows (columns) are skipped -/
def Dilated (g : GConv) : Prop := (2 ≤ g.dh ∧ (2 ≤ g.h1 ∨ 2 ≤ g.kh)) ∨ (2 ≤ g.dw ∧ (2 ≤ g.w1 ∨ 2 ≤ g.kw))

theorem dwLen {h1 h2 k p d : Nat} (hk : 0 < k) (hh : 0 < h1) (hd : 0 < d) (e : h2 + d * (k - 1) = h1 + 2 * p) :
    Torch.convLen h2 h1 1 ((k : Int) - 1 - p) d ≤ k ∧ (2 ≤ d → (2 ≤ h1 ∨ 2 ≤ k) → Torch.convLen h2 h1 1 ((k : Int) - 1 - p) d < k) := by
  obtain ⟨k, rfl⟩ := Nat.exists_eq_succ_of_ne_zero (Nat.pos_iff_ne_zero.1 hk)
  obtain ⟨n, rfl⟩ := Nat.exists_eq_succ_of_ne_zero (Nat.pos_iff_ne_zero.1 hh)
  obtain ⟨d, rfl⟩ := Nat.exists_eq_succ_of_ne_zero (Nat.pos_iff_ne_zero.1 hd)
  unfold Torch.convLen
  simp only [Nat.succ_eq_add_one, Nat.add_sub_cancel] at e ⊢
  have e' : (h2 : Int) + (d + 1) * k = n + 1 + 2 * p := by exact_mod_cast e
  have key : ((h2 : Int) + 2 * (((k + 1 : Nat) : Int) - 1 - p) - ((d + 1 : Nat) : Int) * (((n + 1 : Nat) : Int) - 1) - 1) / ((1 : Nat) : Int) + 1
      = (k + 1 : Nat) - ((d * (n + k) : Nat) : Int) := by
    rw [Nat.cast_one, Int.ediv_one]
    push_cast
    linarith
  rw [key]
  refine ⟨by omega, fun h2 h3 => ?_⟩
  have : 0 < d * (n + k) := Nat.mul_pos (by omega) (by omega)
  omega

theorem conv_numel (hd : g.Dilated) {v W r : Tensor ℝ} {m : Nat} (hm : 0 < m) (hv : v.shape = [m, 1, g.h2, g.w2]) (hW : W.shape = [g.c1, 1, g.h1, g.w1])
    (h : Torch.conv2d v W none (g.cfg bId).dwArgs = .ok r) : r.numel < m * (g.c1 * (g.kh * g.kw)) := by
  have hl := dwLen g.pkh g.ph1 g.pdh g.eh
  have hl' := dwLen g.pkw g.pw1 g.pdw g.ew
  simp only [Torch.conv2d, hv, hW] at h
  split_ifs at h with a1 a2 a3 a4 a5
  simp only [Except.ok.injEq] at h
  subst h
  simp only [Tensor.numel, Tensor.ofFn, size_cons, size_nil]
  have e1 : Torch.convLen g.h2 g.h1 (g.cfg bId).dwArgs.stride.1 (g.cfg bId).dwArgs.padding.1 (g.cfg bId).dwArgs.dilation.1
    = Torch.convLen g.h2 g.h1 1 ((g.kh : Int) - 1 - g.ph) g.dh := rfl
  have e2 : Torch.convLen g.w2 g.w1 (g.cfg bId).dwArgs.stride.2 (g.cfg bId).dwArgs.padding.2 (g.cfg bId).dwArgs.dilation.2
    = Torch.convLen g.w2 g.w1 1 ((g.kw : Int) - 1 - g.pw) g.dw := rfl
  rw [e1, e2] at a5 ⊢
  set A := Torch.convLen g.h2 g.h1 1 ((g.kh : Int) - 1 - g.ph) g.dh
  set C := Torch.convLen g.w2 g.w1 1 ((g.kw : Int) - 1 - g.pw) g.dw
  have pc : 0 < g.c1 := Nat.mul_pos g.pG g.pcg
  refine Nat.mul_lt_mul_of_pos_left (Nat.mul_lt_mul_of_pos_left ?_ pc) hm
  rw [Nat.mul_one]
  have pk := g.pkh; have pk' := g.pkw
  rcases hd with ⟨h1, h2⟩ | ⟨h1, h2⟩
  · have := hl.2 h1 h2
    exact Nat.mul_lt_mul_of_lt_of_le (by omega) (by omega) (by omega)
  · have := hl'.2 h1 h2
    exact Nat.mul_lt_mul_of_le_of_lt (by omega) (by omega) (by omega)

section
variable (hd : g.Dilated)
include hd

theorem vjpSingle_bad {v W : Tensor ℝ} (hv : v.shape = [g.c2, 1, g.h2, g.w2]) (hW : W.shape = [g.c1, 1, g.h1, g.w1]) :
    Bad (Conv2d.vjpSingle (g.cfg bId) g.c1 g.c2 g.h2 g.w2 v W) := by
  have p1 : 0 < g.c2 := Nat.mul_pos g.pG g.pog
  have p2 := g.ph2; have p3 := g.pw2
  refine Bad.ret (reshapeInfer_data (q := g.c2) (by simp only [size_cons, size_nil]; positivity)
    (by rw [(N4.self hv).numel]; simp only [size_cons, size_nil]; ring)) fun u hu => Bad.bindAll fun r hr => Bad.reshape ?_
  have := conv_numel hd p1 hu.1 hW hr
  simp only [size_cons, size_nil]
  refine Nat.ne_of_gt (Nat.lt_of_lt_of_eq this ?_)
  show _ = g.c2 * g.c1 * g.kh * g.kw * 1
  ring

theorem weightDiagSingle_bad {v W : Tensor ℝ} (hv : v.shape = [g.c2, 1, g.h2, g.w2]) (hW : W.shape = [g.c1, 1, g.h1, g.w1]) :
    Bad (Conv2d.weightDiagSingle (g.cfg bId) g.c1 g.c2 g.h2 g.w2 v W) := by
  have p1 : 0 < g.c2 := Nat.mul_pos g.pG g.pog
  have p2 := g.ph2; have p3 := g.pw2
  refine Bad.ret (movedim_4_last (N4.self hv)) fun m1 hm1 => ?_
  refine Bad.ret (reshapeInfer_data (q := g.c2) (by simp only [size_cons, size_nil]; positivity)
    (by rw [hm1.numel]; simp only [size_cons, size_nil]; ring)) fun u hu => Bad.bindAll fun r hr => (Bad.reshape ?_).bind
  have := conv_numel hd p1 hu.1 hW hr
  simp only [size_cons, size_nil]
  refine Nat.ne_of_gt (Nat.lt_of_lt_of_eq this ?_)
  show _ = g.c2 * (g.c1 * (g.kh * (g.kw * 1)))
  ring

theorem mjpSingle_bad {rows : Nat} (hr : 0 < rows) {v W : Tensor ℝ} (hv : v.shape = [g.c2, 1, g.h2, g.w2, rows]) (hW : W.shape = [g.c1, 1, g.h1, g.w1]) :
    Bad (Conv2d.mjpSingle (g.cfg bId) g.c1 g.c2 g.h2 g.w2 rows v W) := by
  have p1 : 0 < g.c2 := Nat.mul_pos g.pG g.pog
  have p2 := g.ph2; have p3 := g.pw2
  refine Bad.ret (movedim_5_last (N5.self hv)) fun m1 hm1 => ?_
  refine Bad.ret (reshapeInfer_data (q := g.c2 * rows) (by simp only [size_cons, size_nil]; positivity)
    (by rw [hm1.numel]; simp only [size_cons, size_nil]; ring)) fun u hu => Bad.bindAll fun r hr' => (Bad.reshape ?_).bind
  have := conv_numel hd (Nat.mul_pos p1 hr) hu.1 hW hr'
  simp only [size_cons, size_nil]
  refine Nat.ne_of_gt (Nat.lt_of_lt_of_eq this ?_)
  show _ = g.c2 * (rows * (g.c1 * (g.kh * (g.kw * 1))))
  ring

variable {B : Nat} (hB : 0 < B) {x : Tensor ℝ} (hx : x.shape = [B, g.c1, g.h1, g.w1])
include hB hx

theorem vjpKernel_bad {v : Tensor ℝ} (hv : v.shape = [B, g.c2, g.h2, g.w2]) : Bad (Conv2d.vjpKernel (g.cfg bId) x B g.c1 g.c2 g.h2 g.w2 v) := by
  rw [Conv2d.vjpKernel]
  split
  · refine Bad.ret (flip_4_hw (N4.self hx)) fun xf hxf => Bad.vmap0 hB hxf.1 hv (Bad.head hxf.1 hv hB fun xi mi hxi hmi => ?_)
    refine Bad.ret (movedim_4_01 (N4.self hxi)) fun x1 hx1 => Bad.ret (unsq hv hB hmi) fun m1 hm1 => Bad.ret (movedim_4_01 (N4.self hm1)) fun m2 hm2 => ?_
    exact vjpSingle_bad hd hm2.1 hx1.1
  · refine Bad.ret (movedim_4_01 (N4.self hv)) fun v1 hv1 => Bad.fill0 hB ?_ _
    refine Bad.ret (slice_4_0 (N4.self hx) hB) fun x1 hx1 => Bad.ret (flip_4_hw hx1) fun x2 hx2 => Bad.ret (movedim_4_01 hx2) fun x3 hx3 => ?_
    refine Bad.ret (slice_4_1 hv1 hB) fun v2 hv2 => vjpSingle_bad hd hv2.1 hx3.1

theorem mjpKernel_bad {rows : Nat} (hr : 0 < rows) {v : Tensor ℝ} (hv : v.shape = [B, g.c2, g.h2, g.w2, rows]) :
    Bad (Conv2d.mjpKernel (g.cfg bId) x B g.c1 g.c2 g.h2 g.w2 rows v) := by
  rw [Conv2d.mjpKernel]
  split
  · refine Bad.ret (flip_4_hw (N4.self hx)) fun xf hxf => Bad.vmap0 hB hxf.1 hv (Bad.head hxf.1 hv hB fun xi mi hxi hmi => ?_)
    refine Bad.ret (movedim_4_01 (N4.self hxi)) fun x1 hx1 => Bad.ret (unsq hv hB hmi) fun m1 hm1 => Bad.ret (movedim_5_01 (N5.self hm1)) fun m2 hm2 => ?_
    exact mjpSingle_bad hd hr hm2.1 hx1.1
  · refine Bad.ret (movedim_5_01 (N5.self hv)) fun v1 hv1 => Bad.fill0 hB ?_ _
    refine Bad.ret (slice_4_0 (N4.self hx) hB) fun x1 hx1 => Bad.ret (flip_4_hw hx1) fun x2 hx2 => Bad.ret (movedim_4_01 hx2) fun x3 hx3 => ?_
    refine Bad.ret (slice_5_1 hv1 hB) fun v2 hv2 => mjpSingle_bad hd hr hv2.1 hx3.1

omit hB hx in
theorem weightSandwich_bad {bias : Option (Tensor ℝ)} {m W : Tensor ℝ} (hm : m.shape = [1, g.c2 * g.h2 * g.w2, g.c2 * g.h2 * g.w2])
    (hW : W.shape = [g.c1, 1, g.h1, g.w1]) : Bad (Conv2d.weightSandwich (g.cfg bId) bias g.c1 g.c2 g.h2 g.w2 m W) := by
  have p1 : 0 < g.c2 := Nat.mul_pos g.pG g.pog
  have p2 := g.ph2; have p3 := g.pw2
  refine Bad.bind (Bad.ret (movedim_3_swap (N3.self hm)) fun m1 hm1 => ?_)
  refine Bad.ret (reshape_data (by rw [hm1.numel]; simp only [size_cons, size_nil]; ring)) fun m2 hm2 => ?_
  refine Bad.ret (flip_5_23 (N5.self hm2.1)) fun m3 hm3 => Bad.ret (movedim_5_01 hm3) fun m4 hm4 => Bad.bind ?_
  exact mjpSingle_bad hd (by positivity) hm4.1 hW

theorem full_bad {bias : Option (Tensor ℝ)} {val m : Tensor ℝ} (hv : val.shape = [B, g.c2, g.h2, g.w2]) :
    Bad (Conv2d.jTmjpWeightFull (g.cfg bId) bias x val m) := by
  have e1 : x.dims4 = .ok (B, g.c1, g.h1, g.w1) := by simp [Tensor.dims4, hx]
  have e2 : val.dims4 = .ok (B, g.c2, g.h2, g.w2) := by simp [Tensor.dims4, hv]
  simp only [Conv2d.jTmjpWeightFull, e1, e2, Res.bind_ok]
  by_cases hm : m.shape = [B, g.c2 * g.h2 * g.w2, g.c2 * g.h2 * g.w2]
  swap
  · exact Bad.bind (by simp only [assertR, hm, decide_false]; exact ⟨_, rfl⟩)
  refine Bad.ret (Ret.assertR hm) fun _ _ => ?_
  split
  · refine Bad.vmap0 hB hx hm (Bad.head hx hm hB fun xi mi hxi hmi => ?_)
    refine Bad.ret (flip_4_hw (N4.self hxi)) fun x1 hx1 => Bad.ret (movedim_4_01 hx1) fun x2 hx2 => Bad.ret (unsq hm hB hmi) fun m1 hm1 => ?_
    exact weightSandwich_bad hd hm1 hx2.1
  · refine Bad.fill0 hB ?_ _
    refine Bad.ret (slice_4_0 (N4.self hx) hB) fun x1 hx1 => Bad.ret (flip_4_hw hx1) fun x2 hx2 => Bad.ret (movedim_4_01 hx2) fun x3 hx3 => ?_
    exact Bad.ret (slice_3_0 (N3.self hm) hB) fun v2 hv2 => weightSandwich_bad hd hv2.1 hx3.1

theorem diag_bad {bias : Option (Tensor ℝ)} {val m : Tensor ℝ} (hv : val.shape = [B, g.c2, g.h2, g.w2]) :
    Bad (Conv2d.jTmjpWeightDiag (g.cfg bId) bias x val m) := by
  have e1 : x.dims4 = .ok (B, g.c1, g.h1, g.w1) := by simp [Tensor.dims4, hx]
  have e2 : val.dims4 = .ok (B, g.c2, g.h2, g.w2) := by simp [Tensor.dims4, hv]
  simp only [Conv2d.jTmjpWeightDiag, e1, e2, Res.bind_ok]
  refine Bad.bindAll fun m1 hm1 => ?_
  have s1 := Conv2d.reshape_shape hm1
  refine Bad.ret (flip_4_chw (N4.self s1)) fun m2 hm2 => Bad.ret (flip_4_chw (N4.self hx)) fun xf hxf => Bad.bind ?_
  have hxs : (xf.map fun a => a * a).shape = [B, g.c1, g.h1, g.w1] := hxf.1
  rw [Conv2d.weightDiagKernel]
  split
  · refine Bad.vmap0 hB hxs hm2.1 (Bad.head hxs hm2.1 hB fun xi mi hxi hmi => ?_)
    refine Bad.ret (movedim_4_01 (N4.self hxi)) fun x1 hx1 => Bad.ret (unsq hm2.1 hB hmi) fun m1 hm1 => Bad.ret (movedim_4_01 (N4.self hm1)) fun m2 hm2 => ?_
    exact weightDiagSingle_bad hd hm2.1 hx1.1
  · refine Bad.ret (movedim_4_01 hm2) fun v1 hv1 => Bad.ret (movedim_4_01 (N4.self hxs)) fun x1 hx1 => Bad.fill0 hB ?_ _
    exact Bad.ret (slice_4_1 hx1 hB) fun x2 hx2 => Bad.ret (slice_4_1 hv1 hB) fun v2 hv2 => weightDiagSingle_bad hd hv2.1 hx2.1

theorem mjpSome_bad {W : Tensor ℝ} {bias : Option (Tensor ℝ)} {val m : Tensor ℝ} (hv : val.shape = [B, g.c2, g.h2, g.w2]) (hm : m.shape[1]? ≠ some 0) :
    Bad (Conv2d.mjpSome (g.cfg bId) W bias x val m .weight) := by
  have e1 : x.dims4 = .ok (B, g.c1, g.h1, g.w1) := by simp [Tensor.dims4, hx]
  have e2 : val.dims4 = .ok (B, g.c2, g.h2, g.w2) := by simp [Tensor.dims4, hv]
  simp only [Conv2d.mjpSome, e1, e2, Res.bind_ok]
  refine Bad.bindAll fun rows hr => ?_
  by_cases hs : m.shape = [B, rows, g.c2 * g.h2 * g.w2]
  swap
  · exact Bad.bind (by simp only [assertR, hs, decide_false]; exact ⟨_, rfl⟩)
  refine Bad.ret (Ret.assertR hs) fun _ _ => ?_
  have h0 : 0 < rows := by
    rw [hs] at hm
    simp at hm
    omega
  refine Bad.ret (movedim_3_swap (N3.self hs)) fun m1 hm1 => ?_
  refine Bad.ret (reshape_data (by rw [hm1.numel]; simp only [size_cons, size_nil]; ring)) fun m2 hm2 => ?_
  refine Bad.ret (flip_5_23 (N5.self hm2.1)) fun m3 hm3 => Bad.bind ?_
  exact mjpKernel_bad hd hB hx h0 hm3.1

theorem vjp_bad {W : Tensor ℝ} {bias : Option (Tensor ℝ)} {val v : Tensor ℝ} (hv : val.shape = [B, g.c2, g.h2, g.w2]) :
    Bad (Conv2d.vjp (g.cfg bId) W bias x (some val) v .weight) := by
  have e1 : x.dims4 = .ok (B, g.c1, g.h1, g.w1) := by simp [Tensor.dims4, hx]
  have e2 : val.dims4 = .ok (B, g.c2, g.h2, g.w2) := by simp [Tensor.dims4, hv]
  simp only [Conv2d.vjp, Conv2d.getVal, e1, e2, Res.bind_ok]
  refine Bad.bindAll fun _ _ => Bad.bindAll fun m1 hm1 => Bad.ret (flip_4_hw (N4.self (Conv2d.reshape_shape hm1))) fun m2 hm2 => Bad.bind ?_
  exact vjpKernel_bad hd hB hx hm2.1

end

end GConv
end NNJ
