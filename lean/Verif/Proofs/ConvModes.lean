import Verif.Proofs.ConvGen
import Verif.Proofs.ConvBad
import Verif.Spec.ConvModes

/-! Conv2d with `padding_mode`: the forward pass, and the products depend on the shape of `val` only. -/

namespace NNJ
open Tensor Matrix

theorem PadMode.src_fills {m : PadMode} {h p i : Nat} (hh : 0 < h) (ha : m.accepts h p = true) (hi : i < h + 2 * p) :
    m.Fills h ((i : Int) - p) (m.src h p i) := by
  cases m with
  | zeros => rfl
  | reflect =>
    simp only [PadMode.accepts, decide_eq_true_eq] at ha
    simp only [PadMode.Fills, PadMode.src]
    split_ifs <;> omega
  | replicate =>
    simp only [PadMode.Fills, PadMode.src]
    refine ⟨by omega, fun j h0 h1 => ?_⟩
    rw [abs_le]
    rcases abs_cases ((i : Int) - p - j) with h2 | h2 <;> omega
  | circular =>
    simp only [PadMode.Fills, PadMode.src]
    refine ⟨⟨Int.emod_nonneg _ (by omega), Int.emod_lt_of_pos _ (by omega)⟩, Int.dvd_self_sub_emod⟩

theorem PadMode.src_inside {m : PadMode} {h p i : Nat} (h1 : p ≤ i) (h2 : i < p + h) : m.src h p i = (i : Int) - p := by
  cases m with
  | zeros => rfl
  | reflect => simp only [PadMode.src]; split_ifs <;> omega
  | replicate => simp only [PadMode.src]; omega
  | circular => simp only [PadMode.src]; exact Int.emod_eq_of_lt (by omega) (by omega)

theorem PadMode.src_range {m : PadMode} {h p i : Nat} (hm : m ≠ .zeros) (hh : 0 < h) (ha : m.accepts h p = true) (hi : i < h + 2 * p) :
    0 ≤ m.src h p i ∧ m.src h p i < h := by
  have := PadMode.src_fills hh ha hi
  cases m with
  | zeros => exact absurd rfl hm
  | reflect => exact this.1
  | replicate => exact this.1
  | circular => exact this.1

/-- `F.pad` -/
theorem pad2_spec {m : PadMode} {x : Tensor ℝ} {n c h w ph pw : Nat} {X : Nat → Nat → Nat → Nat → ℝ} (hm : m ≠ .zeros) (hh : 0 < h) (hw : 0 < w)
    (hx : N4 x n c h w X) (ha : m.accepts h ph = true) (hb : m.accepts w pw = true) :
    Ret (Torch.pad2 m x ph pw) fun r => N4 r n c (h + 2 * ph) (w + 2 * pw) fun i a y z => X i a (m.src h ph y).toNat (m.src w pw z).toNat := by
  simp only [Torch.pad2, hx.1, ha, hb, Bool.and_self, if_true]
  refine Ret.ok ⟨rfl, fun i a y z hi hc hy hz => ?_⟩
  rw [get_ofFn _ (by simp [*])]
  simp only [List.getD_cons_succ, List.getD_cons_zero]
  have h1 := PadMode.src_range hm hh ha hy
  have h2 := PadMode.src_range hm hw hb hz
  exact hx.2 i a _ _ hi hc (by omega) (by omega)

namespace GConv
variable {g : GConv} {bId : Option Nat} {m : PadMode}

theorem tapR {r i : Nat} (hr : r < g.h2) (hi : i < g.kh) : r + i * g.dh < g.h1 + 2 * g.ph := by
  rw [← g.eh]
  have : i * g.dh ≤ g.dh * (g.kh - 1) := by rw [Nat.mul_comm]; exact Nat.mul_le_mul_left _ (by omega)
  omega

theorem tapC {s j : Nat} (hs : s < g.w2) (hj : j < g.kw) : s + j * g.dw < g.w1 + 2 * g.pw := by
  rw [← g.ew]
  have : j * g.dw ≤ g.dw * (g.kw - 1) := by rw [Nat.mul_comm]; exact Nat.mul_le_mul_left _ (by omega)
  omega

theorem modeF_zeros (W : Nat → ℝ) (x : Fin (g.c1 * g.h1 * g.w1) → ℝ) : g.modeF .zeros W x = g.F W x := rfl

theorem padAt_sum {h w : Nat} (img : Fin h → Fin w → ℝ) (y z : Int) :
    padAt img y z = ∑ u : Fin h, ∑ v : Fin w, if y = (u : Nat) ∧ z = (v : Nat) then img u v else 0 := by
  unfold padAt
  split_ifs with hc
  · rw [Finset.sum_eq_single (⟨y.toNat, by omega⟩ : Fin h), Finset.sum_eq_single (⟨z.toNat, by omega⟩ : Fin w), if_pos]
    · constructor <;> simp only <;> omega
    · intro v _ hv
      rw [if_neg]
      rintro ⟨-, h2⟩
      exact hv (Fin.ext (by simp only; omega))
    · simp
    · intro u _ hu
      refine Finset.sum_eq_zero fun v _ => if_neg ?_
      rintro ⟨h2, -⟩
      exact hu (Fin.ext (by simp only; omega))
    · simp
  · symm
    refine Finset.sum_eq_zero fun u _ => Finset.sum_eq_zero fun v _ => if_neg ?_
    rintro ⟨h1, h2⟩
    have := u.2
    have := v.2
    omega

/-- the forward map is linear -/
theorem modeF_eq (W : Nat → ℝ) (x : Fin (g.c1 * g.h1 * g.w1) → ℝ) : g.modeF m W x = g.modeJ m W *ᵥ x := by
  funext k
  simp only [modeF, mulVec, dotProduct]
  rw [sum_pix]
  refine Finset.sum_congr rfl fun c _ => ?_
  have e : ∀ (i : Fin g.kh) (j : Fin g.kw), padAt (fun (u : Fin g.h1) (v : Fin g.w1) => x (pix c u v)) (g.srcR m (row k) i) (g.srcC m (col k) j)
        * g.ker W (chan k : Fin g.c2) c i j
      = ∑ u : Fin g.h1, ∑ v : Fin g.w1, if g.srcR m (row k) i = (u : Nat) ∧ g.srcC m (col k) j = (v : Nat) then
        g.ker W (chan k : Fin g.c2) c i j * x (pix c u v) else 0 := by
    intro i j
    rw [padAt_sum, Finset.sum_mul]
    refine Finset.sum_congr rfl fun u _ => ?_
    rw [Finset.sum_mul]
    refine Finset.sum_congr rfl fun v _ => ?_
    rw [ite_mul, zero_mul, mul_comm]
  simp only [e]
  rw [Finset.sum_congr rfl fun i _ => Finset.sum_comm, Finset.sum_comm]
  refine Finset.sum_congr rfl fun u _ => ?_
  rw [Finset.sum_congr rfl fun i _ => Finset.sum_comm, Finset.sum_comm]
  refine Finset.sum_congr rfl fun v _ => ?_
  simp only [modeJ, row_pix, col_pix, chan_pix, Finset.sum_mul, ite_mul, zero_mul]

/-- the difference between the derivatives in mode `m` and in mode zeros: the kernel positions beyond the border -/
theorem modeJ_sub (W : Nat → ℝ) (k : Fin (g.c2 * g.h2 * g.w2)) (q : Fin (g.c1 * g.h1 * g.w1)) :
    g.modeJ m W k q = g.J W k q + ∑ i : Fin g.kh, ∑ j : Fin g.kw,
      if g.Beyond (row k) (col k) i j ∧ g.srcR m (row k) i = (row q : Nat) ∧ g.srcC m (col k) j = (col q : Nat) then
        g.ker W (chan k : Fin g.c2) (chan q : Fin g.c1) i j else 0 := by
  simp only [modeJ, J]
  rw [← Finset.sum_add_distrib]
  refine Finset.sum_congr rfl fun i _ => ?_
  rw [← Finset.sum_add_distrib]
  refine Finset.sum_congr rfl fun j _ => ?_
  have hu := (row q).2
  have hv := (col q).2
  by_cases hb : g.Beyond (row k) (col k) i j
  · simp only [hb, true_and]
    rw [if_neg (c := (row k : Nat) + i * g.dh = (row q : Nat) + g.ph ∧ (col k : Nat) + j * g.dw = (col q : Nat) + g.pw), zero_add]
    unfold Beyond at hb
    omega
  · simp only [hb, false_and, if_false, add_zero]
    unfold Beyond at hb
    rw [not_not] at hb
    rw [srcR, srcC, PadMode.src_inside hb.1.1 hb.1.2, PadMode.src_inside hb.2.1 hb.2.2]
    refine if_congr ?_ rfl rfl
    omega

section
variable {W : Tensor ℝ} (hW : W.shape = [g.c2, g.cg, g.kh, g.kw]) {B : Nat} {x : Tensor ℝ} {X : Fin B → Fin (g.c1 * g.h1 * g.w1) → ℝ}

theorem modeForward_eq (hm : m ≠ .zeros) (bias : Option (Tensor ℝ)) (cfg : Conv2d.Cfg) : Conv2d.modeForward m cfg W bias x = (do
    let x ← Torch.pad2 m x cfg.padding.1 cfg.padding.2
    Torch.conv2d x W bias { cfg.fwdArgs with padding := (0, 0) }) := by
  cases m with
  | zeros => exact absurd rfl hm
  | reflect => rfl
  | replicate => rfl
  | circular => rfl

include hW

omit hW in
theorem accepts_iff : g.Accepts m ↔ m.accepts g.h1 g.ph = true ∧ m.accepts g.w1 g.pw = true := by
  have p1 := g.ph1
  have p2 := g.pw1
  cases m <;> simp [Accepts, PadMode.accepts, p1, p2]

theorem mode_specG {bias : Option (Tensor ℝ)} (ha : g.Accepts m) (hb : ∀ t ∈ bias, t.shape = [g.c2])
    (hx : IsBatch x B [g.c1, g.h1, g.w1] (g.c1 * g.h1 * g.w1) X) :
    Ret (Conv2d.modeForward m (g.cfg bId) W bias x) fun v => IsBatch v B [g.c2, g.h2, g.w2] (g.c2 * g.h2 * g.w2) fun b k =>
      g.modeF m W.data (X b) k + biasAt bias (chan k : Fin g.c2) := by
  by_cases hm : m = .zeros
  · subst hm
    exact forward_specG hW hb hx
  rw [accepts_iff] at ha
  rw [modeForward_eq hm]
  have w4 : N4 W g.c2 g.cg g.kh g.kw fun o c i j => W.data (((o * g.cg + c) * g.kh + i) * g.kw + j) := N4.of_data hW fun _ _ _ _ _ _ _ _ => rfl
  refine (pad2_spec hm g.ph1 g.pw1 hx.n4 ha.1 ha.2).bind fun p hp => ?_
  have key := conv2d_specG (b := bias) (ph := 0) (pw := 0) hp w4 hb g.pG g.pdh g.pdw g.pkh g.pkw g.ph2 g.pw2 g.eh g.ew
  refine key.mono fun r hr => isBatch_img hr.1 fun b o y z => ?_
  rw [hr.data b.2 o.2 y.2 z.2, modeF]
  simp only [row_pix, col_pix, chan_pix]
  congr 1
  rw [Finset.sum_range]
  refine Finset.sum_congr rfl fun c _ => ?_
  rw [Finset.sum_range]
  refine Finset.sum_congr rfl fun i _ => ?_
  rw [Finset.sum_range]
  refine Finset.sum_congr rfl fun j _ => ?_
  have t1 := g.tapR y.2 i.2
  have t2 := g.tapC z.2 j.2
  have s1 := PadMode.src_range hm g.ph1 ha.1 t1
  have s2 := PadMode.src_range hm g.pw1 ha.2 t2
  congr 1
  rw [Torch.padGet, if_pos (by omega), padAt, dif_pos (by exact ⟨s1, s2⟩)]
  have e1 : (((((y : Nat) + i * g.dh : Nat) : Int) - ((0 : Nat) : Int)).toNat) = (y : Nat) + i * g.dh := by omega
  have e2 : (((((z : Nat) + j * g.dw : Nat) : Int) - ((0 : Nat) : Int)).toNat) = (z : Nat) + j * g.dw := by omega
  rw [e1, e2]
  have := hx.img b c ⟨(m.src g.h1 g.ph ((y : Nat) + i * g.dh)).toNat, by omega⟩ ⟨(m.src g.w1 g.pw ((z : Nat) + j * g.dw)).toNat, by omega⟩
  exact this

end

/-- `F.pad` refuses -/
theorem mode_refused {W : Tensor ℝ} {B : Nat} {x : Tensor ℝ} {bias : Option (Tensor ℝ)} (hx : x.shape = [B, g.c1, g.h1, g.w1]) (hm : m ≠ .zeros)
    (ha : ¬ g.Accepts m) : Conv2d.modeForward m (g.cfg bId) W bias x = .error .shape := by
  rw [modeForward_eq hm]
  simp only [Torch.pad2, hx]
  rw [if_neg]
  · rfl
  · rw [Bool.and_eq_true]; exact fun h => ha (accepts_iff.2 h)

end GConv

/-! ### the products look only at the shape of `val` -/

namespace Conv2d
variable {cfg : Cfg} {W x y y' : Tensor ℝ} {bias : Option (Tensor ℝ)}

theorem dims_congr (h : y.shape = y'.shape) : y.dims4 = y'.dims4 := by rw [Tensor.dims4, Tensor.dims4, h]

theorem mjpSome_congr (h : y.shape = y'.shape) (A : Tensor ℝ) (wrt : Wrt) : mjpSome cfg W bias x y A wrt = mjpSome cfg W bias x y' A wrt := by
  simp only [mjpSome, dims_congr h]

theorem jacobian_congr (h : y.shape = y'.shape) (wrt : Wrt) : jacobian cfg W bias x (some y) wrt = jacobian cfg W bias x (some y') wrt := by
  simp only [jacobian, getVal, Res.bind_ok, dims_congr h, mjpSome_congr h]

theorem vjp_congr (h : y.shape = y'.shape) (v : Tensor ℝ) (wrt : Wrt) : vjp cfg W bias x (some y) v wrt = vjp cfg W bias x (some y') v wrt := by
  simp only [vjp, getVal, Res.bind_ok, dims_congr h]

theorem mjp_congr (h : y.shape = y'.shape) (A : Option (Tensor ℝ)) (wrt : Wrt) : mjp cfg W bias x (some y) A wrt = mjp cfg W bias x (some y') A wrt := by
  cases A with
  | none => simp only [mjp, getVal, Res.bind_ok]; exact jacobian_congr h wrt
  | some A => simp only [mjp, getVal, Res.bind_ok]; exact mjpSome_congr h A wrt

theorem jTmjp_congr (h : y.shape = y'.shape) (A : Option (Tensor ℝ)) (wrt : Wrt) (fd td db : Bool) :
    jTmjp cfg W bias x (some y) A wrt fd td db = jTmjp cfg W bias x (some y') A wrt fd td db := by
  have e1 : onesLike y = onesLike y' := by rw [onesLike, onesLike, h]
  have e2 : ∀ A, jTmjpInputFull cfg W bias x y A = jTmjpInputFull cfg W bias x y' A := fun A => by simp only [jTmjpInputFull, mjp_congr h]
  have e3 : ∀ A, jTmjpInputDiag cfg W x y A = jTmjpInputDiag cfg W x y' A := fun A => by simp only [jTmjpInputDiag, dims_congr h]
  have e4 : ∀ A, jTmjpWeightFull cfg bias x y A = jTmjpWeightFull cfg bias x y' A := fun A => by simp only [jTmjpWeightFull, dims_congr h]
  have e5 : ∀ A, jTmjpWeightDiag cfg bias x y A = jTmjpWeightDiag cfg bias x y' A := fun A => by simp only [jTmjpWeightDiag, dims_congr h]
  simp only [jTmjp, getVal, Res.bind_ok, e1, e2, e3, e4, e5]

end Conv2d
end NNJ
