import Verif.Proofs.Nd
import Verif.Torch.Conv

/-! Convolutions as finite sums. -/

namespace NNJ
open Tensor

theorem sumRange_range {R : Type} [AddCommMonoid R] (n : Nat) (f : Nat → R) : sumRange n f = ∑ i ∈ Finset.range n, f i := by
  rw [sumRange_eq, Finset.sum_range]

/-- a zero-padded image as a sum over the image -/
theorem padGet_sum (h w : Nat) (img : Nat → Nat → ℝ) (Y Z : Int) :
    Torch.padGet h w img Y Z
      = ∑ y ∈ Finset.range h, ∑ z ∈ Finset.range w, if (y : Int) = Y ∧ (z : Int) = Z then img y z else 0 := by
  unfold Torch.padGet
  split_ifs with hc
  · obtain ⟨h1, h2, h3, h4⟩ := hc
    rw [Finset.sum_eq_single Y.toNat, Finset.sum_eq_single Z.toNat]
    · rw [if_pos ⟨by omega, by omega⟩]
    · intro z _ hz
      rw [if_neg (by omega)]
    · intro hz
      simp at hz; omega
    · intro y _ hy
      refine Finset.sum_eq_zero fun z _ => ?_
      rw [if_neg (by omega)]
    · intro hz
      simp at hz; omega
  · symm
    refine Finset.sum_eq_zero fun y hy => Finset.sum_eq_zero fun z hz => ?_
    simp only [Finset.mem_range] at hy hz
    rw [if_neg (by omega)]

theorem padGet_congr {h w : Nat} {f g : Nat → Nat → ℝ} (e : ∀ y z, y < h → z < w → f y z = g y z) (Y Z : Int) :
    Torch.padGet h w f Y Z = Torch.padGet h w g Y Z := by
  unfold Torch.padGet
  split_ifs with hc
  · exact e _ _ (by omega) (by omega)
  · rfl

/-- the bias added to channel `o` -/
def biasAt (b : Option (Tensor ℝ)) (o : Nat) : ℝ :=
  match b with
  | none => 0
  | some t => t.get [o]

/-- `F.conv2d` with one group and no dilation -/
theorem conv2d_spec {x W : Tensor ℝ} {b : Option (Tensor ℝ)} {n ci h w co kh kw oh ow : Nat} {X K : Nat → Nat → Nat → Nat → ℝ}
    {a : Torch.ConvArgs} (hx : N4 x n ci h w X) (hW : N4 W co ci kh kw K) (hb : ∀ t ∈ b, t.shape = [co])
    (hg : a.groups = 1) (hd : a.dilation = (1, 1)) (hs1 : 0 < a.stride.1) (hs2 : 0 < a.stride.2)
    (hp1 : 0 ≤ a.padding.1) (hp2 : 0 ≤ a.padding.2) (ho1 : 0 < oh) (ho2 : 0 < ow)
    (h1 : Torch.convLen h kh a.stride.1 a.padding.1 1 = oh) (h2 : Torch.convLen w kw a.stride.2 a.padding.2 1 = ow) :
    Ret (Torch.conv2d x W b a) fun r => N4 r n co oh ow fun i o y z =>
      (∑ c ∈ Finset.range ci, ∑ u ∈ Finset.range kh, ∑ v ∈ Finset.range kw,
        Torch.padGet h w (X i c) ((y * a.stride.1 + u : Nat) - a.padding.1) ((z * a.stride.2 + v : Nat) - a.padding.2) * K o c u v)
      + biasAt b o := by
  have hd1 : a.dilation.1 = 1 := by rw [hd]
  have hd2 : a.dilation.2 = 1 := by rw [hd]
  simp only [Torch.conv2d, hx.1, hW.1]
  rw [if_neg (by omega), if_neg (by omega), if_neg (by simp [hg, Nat.mod_one]), if_neg (by cases b with
    | none => simp
    | some t => simp [hb t rfl])]
  simp only [hd1, hd2, hg, h1, h2]
  rw [if_neg (by omega)]
  refine Ret.ok ⟨by simp, fun i o y z hi ho hy hz => ?_⟩
  rw [get_ofFn _ (by simp [*])]
  simp only [List.getD_cons_succ, List.getD_cons_zero, Nat.div_one, Nat.mul_one, Nat.div_eq_of_lt ho, Nat.zero_mul, Nat.zero_add]
  have e : (sumRange ci fun c => sumRange kh fun u => sumRange kw fun v =>
      Torch.padGet h w (fun yy zz => x.get [i, c, yy, zz]) ((y * a.stride.1 + u : Nat) - a.padding.1)
        ((z * a.stride.2 + v : Nat) - a.padding.2) * W.get [o, c, u, v])
      = ∑ c ∈ Finset.range ci, ∑ u ∈ Finset.range kh, ∑ v ∈ Finset.range kw,
        Torch.padGet h w (X i c) ((y * a.stride.1 + u : Nat) - a.padding.1) ((z * a.stride.2 + v : Nat) - a.padding.2) * K o c u v := by
    rw [sumRange_range]
    refine Finset.sum_congr rfl fun c hc => ?_
    rw [sumRange_range]
    refine Finset.sum_congr rfl fun u hu => ?_
    rw [sumRange_range]
    refine Finset.sum_congr rfl fun v hv => ?_
    simp only [Finset.mem_range] at hc hu hv
    rw [hW.2 o c u v ho hc hu hv, padGet_congr (g := X i c) fun yy zz h1 h2 => hx.2 i c yy zz hi hc h1 h2]
  cases b with
  | none => simp only [biasAt, add_zero]; exact e
  | some t => simp only [biasAt]; exact congrArg (· + t.get [o]) e

/-- `F.conv_transpose2d` with stride 1, one group and no dilation -/
theorem convTranspose2d_spec {x W : Tensor ℝ} {n ci h w co kh kw oh ow : Nat} {X K : Nat → Nat → Nat → Nat → ℝ}
    {a : Torch.ConvArgs} (hx : N4 x n ci h w X) (hW : N4 W ci co kh kw K) (hg : a.groups = 1) (hd : a.dilation = (1, 1))
    (hs : a.stride = (1, 1)) (hp1 : 0 ≤ a.padding.1) (hp2 : 0 ≤ a.padding.2) (ho1 : 0 < oh) (ho2 : 0 < ow)
    (h1 : Torch.convTLen h kh 1 a.padding.1 1 = oh) (h2 : Torch.convTLen w kw 1 a.padding.2 1 = ow) :
    Ret (Torch.convTranspose2d x W a) fun r => N4 r n co oh ow fun i o y z =>
      ∑ c ∈ Finset.range ci, ∑ u ∈ Finset.range kh, ∑ v ∈ Finset.range kw,
        Torch.padGet h w (X i c) ((y : Int) + a.padding.1 - (u : Nat)) ((z : Int) + a.padding.2 - (v : Nat)) * K c o u v := by
  have hd1 : a.dilation.1 = 1 := by rw [hd]
  have hd2 : a.dilation.2 = 1 := by rw [hd]
  simp only [Torch.convTranspose2d, hx.1, hW.1]
  rw [if_neg (by omega), if_neg (by simp [hg, hd, hs]), if_neg (by simp [hg, Nat.mod_one])]
  simp only [hd1, hd2, hg, hs, h1, h2]
  rw [if_neg (by omega)]
  refine Ret.ok ⟨by simp, fun i o y z hi ho hy hz => ?_⟩
  rw [get_ofFn _ (by simp [*])]
  simp only [List.getD_cons_succ, List.getD_cons_zero, Nat.div_one, Nat.mul_one, Nat.div_eq_of_lt ho, Nat.zero_mul, Nat.zero_add,
    Nat.mod_eq_of_lt ho]
  rw [sumRange_range]
  refine Finset.sum_congr rfl fun c hc => ?_
  rw [sumRange_range]
  refine Finset.sum_congr rfl fun u hu => ?_
  rw [sumRange_range]
  refine Finset.sum_congr rfl fun v hv => ?_
  simp only [Finset.mem_range] at hc hu hv
  rw [hW.2 c o u v hc ho hu hv]
  congr 1
  simp only [Torch.strideGet, Nat.cast_one, Int.emod_one, Int.ediv_one, and_self, if_true]
  exact padGet_congr (g := X i c) (fun yy zz h1 h2 => hx.2 i c yy zz hi hc h1 h2) _ _

end NNJ
