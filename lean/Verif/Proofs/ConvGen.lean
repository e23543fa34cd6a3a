import Verif.Proofs.ConvGood
import Verif.Proofs.NetFacts
import Verif.Spec.GNet

/-! Conv2d with dilation and groups: convolutions as sums, products with the input Jacobian. -/

namespace NNJ
open Tensor Matrix

/-- a sum over the channels of one group -/
theorem sum_group {G n q : Nat} (hq : q < G) (F : Nat → ℝ) :
    ∑ c ∈ Finset.range n, F (q * n + c) = ∑ c ∈ Finset.range (G * n), if c / n = q then F c else 0 := by
  rw [Conv2d.sum_pair (a := G) (b := n) (F := fun c => if c / n = q then F c else 0), Finset.sum_eq_single (a := q) (s := Finset.range G)]
  · refine Finset.sum_congr rfl fun c hc => ?_
    simp only [Finset.mem_range] at hc
    rw [if_pos (by rw [Nat.mul_comm, Nat.mul_add_div (by omega), Nat.div_eq_of_lt hc, Nat.add_zero])]
  · intro r _ hr
    refine Finset.sum_eq_zero fun c hc => ?_
    simp only [Finset.mem_range] at hc
    rw [if_neg]
    rw [Nat.mul_comm, Nat.mul_add_div (by omega), Nat.div_eq_of_lt hc, Nat.add_zero]
    exact hr
  · intro h
    exact absurd (Finset.mem_range.2 hq) h

theorem convLenG {h k o p d : Nat} (hk : 0 < k) (e : o + d * (k - 1) = h + 2 * p) : Torch.convLen h k 1 (p : Int) d = o := by
  unfold Torch.convLen
  obtain ⟨k, rfl⟩ := Nat.exists_eq_succ_of_ne_zero (Nat.pos_iff_ne_zero.1 hk)
  rw [Nat.cast_one, Int.ediv_one]
  simp only [Nat.succ_eq_add_one, Nat.add_sub_cancel] at e
  have : ((o : Int)) + d * k = h + 2 * p := by exact_mod_cast e
  push_cast
  linarith

theorem convTLenG {h k o p d : Nat} (hk : 0 < k) (e : o + d * (k - 1) = h + 2 * p) : Torch.convTLen o k 1 (p : Int) d = h := by
  unfold Torch.convTLen
  obtain ⟨k, rfl⟩ := Nat.exists_eq_succ_of_ne_zero (Nat.pos_iff_ne_zero.1 hk)
  simp only [Nat.succ_eq_add_one, Nat.add_sub_cancel] at e
  have : ((o : Int)) + d * k = h + 2 * p := by exact_mod_cast e
  push_cast
  linarith

/-- a kernel of `G` groups as a kernel over all channels -/
noncomputable def denseK (cg og : Nat) (K : Nat → Nat → Nat → Nat → ℝ) (o c i j : Nat) : ℝ := if c / cg = o / og then K o (c % cg) i j else 0

theorem mod_group {n c : Nat} (q : Nat) (hc : c < n) : (q * n + c) % n = c := by
  rw [Nat.mul_comm, Nat.mul_add_mod, Nat.mod_eq_of_lt hc]

theorem div_group {n c : Nat} (q : Nat) (hc : c < n) : (q * n + c) / n = q := by
  rw [Nat.mul_comm, Nat.mul_add_div (by omega), Nat.div_eq_of_lt hc, Nat.add_zero]

theorem group_lt {G n o : Nat} (ho : o < G * n) : o / n < G := Nat.div_lt_of_lt_mul (by rwa [Nat.mul_comm])

/-- `F.conv2d` with stride 1 -/
theorem conv2d_specG {x W : Tensor ℝ} {b : Option (Tensor ℝ)} {n G cg og h w kh kw oh ow ph pw dh dw : Nat} {X K : Nat → Nat → Nat → Nat → ℝ}
    (hx : N4 x n (G * cg) h w X) (hW : N4 W (G * og) cg kh kw K) (hb : ∀ t ∈ b, t.shape = [G * og])
    (hG : 0 < G) (hd1 : 0 < dh) (hd2 : 0 < dw) (hk1 : 0 < kh) (hk2 : 0 < kw) (ho1 : 0 < oh) (ho2 : 0 < ow)
    (h1 : oh + dh * (kh - 1) = h + 2 * ph) (h2 : ow + dw * (kw - 1) = w + 2 * pw) :
    Ret (Torch.conv2d x W b { stride := (1, 1), padding := ((ph : Int), (pw : Int)), dilation := (dh, dw), groups := G }) fun r =>
      N4 r n (G * og) oh ow fun i o y z =>
      (∑ c ∈ Finset.range (G * cg), ∑ u ∈ Finset.range kh, ∑ v ∈ Finset.range kw,
        Torch.padGet h w (X i c) ((y + u * dh : Nat) - (ph : Int)) ((z + v * dw : Nat) - (pw : Int)) * denseK cg og K o c u v)
      + biasAt b o := by
  simp only [Torch.conv2d, hx.1, hW.1]
  rw [if_neg (by omega), if_neg (by omega), if_neg (by simp [Nat.mul_comm]), if_neg (by cases b with
    | none => simp
    | some t => simp [hb t rfl])]
  simp only [convLenG hk1 h1, convLenG hk2 h2]
  rw [if_neg (by omega)]
  refine Ret.ok ⟨by simp, fun i o y z hi ho hy hz => ?_⟩
  rw [get_ofFn _ (by simp [*])]
  simp only [List.getD_cons_succ, List.getD_cons_zero, Nat.mul_one, Nat.mul_div_cancel_left og hG]
  have e : (sumRange cg fun c => sumRange kh fun u => sumRange kw fun v =>
      Torch.padGet h w (fun yy zz => x.get [i, o / og * cg + c, yy, zz]) ((y + u * dh : Nat) - (ph : Int))
        ((z + v * dw : Nat) - (pw : Int)) * W.get [o, c, u, v])
      = ∑ c ∈ Finset.range (G * cg), ∑ u ∈ Finset.range kh, ∑ v ∈ Finset.range kw,
        Torch.padGet h w (X i c) ((y + u * dh : Nat) - (ph : Int)) ((z + v * dw : Nat) - (pw : Int)) * denseK cg og K o c u v := by
    have e2 := sum_group (n := cg) (group_lt ho) fun c => ∑ u ∈ Finset.range kh, ∑ v ∈ Finset.range kw,
        Torch.padGet h w (X i c) ((y + u * dh : Nat) - (ph : Int)) ((z + v * dw : Nat) - (pw : Int)) * K o (c % cg) u v
    rw [sumRange_range]
    refine Eq.trans (Finset.sum_congr rfl fun c hc => ?_) (e2.trans (Finset.sum_congr rfl fun c hc => ?_))
    · rw [sumRange_range]
      refine Finset.sum_congr rfl fun u hu => ?_
      rw [sumRange_range]
      refine Finset.sum_congr rfl fun v hv => ?_
      simp only [Finset.mem_range] at hc hu hv
      rw [hW.2 o c u v ho hc hu hv, mod_group _ hc,
        padGet_congr (g := X i (o / og * cg + c)) fun yy zz h1 h2 => hx.2 i _ yy zz hi (lt_pair (group_lt ho) hc) h1 h2]
    · unfold denseK
      split_ifs <;> simp
  cases b with
  | none => simp only [biasAt, add_zero]; exact e
  | some t => simp only [biasAt]; exact congrArg (· + t.get [o]) e

/-- `F.conv_transpose2d` with stride 1 -/
theorem convTranspose2d_specG {x W : Tensor ℝ} {n G cg og h w kh kw oh ow ph pw dh dw : Nat} {X K : Nat → Nat → Nat → Nat → ℝ}
    (hx : N4 x n (G * og) oh ow X) (hW : N4 W (G * og) cg kh kw K)
    (hG : 0 < G) (hd1 : 0 < dh) (hd2 : 0 < dw) (hk1 : 0 < kh) (hk2 : 0 < kw) (ho1 : 0 < h) (ho2 : 0 < w)
    (h1 : oh + dh * (kh - 1) = h + 2 * ph) (h2 : ow + dw * (kw - 1) = w + 2 * pw) :
    Ret (Torch.convTranspose2d x W { stride := (1, 1), padding := ((ph : Int), (pw : Int)), dilation := (dh, dw), groups := G }) fun r =>
      N4 r n (G * cg) h w fun i c y z =>
      ∑ o ∈ Finset.range (G * og), ∑ u ∈ Finset.range kh, ∑ v ∈ Finset.range kw,
        Torch.padGet oh ow (X i o) ((y : Int) + ph - (u * dh : Nat)) ((z : Int) + pw - (v * dw : Nat)) * denseK cg og K o c u v := by
  simp only [Torch.convTranspose2d, hx.1, hW.1]
  rw [if_neg (by omega), if_neg (by omega), if_neg (by simp)]
  simp only [convTLenG hk1 h1, convTLenG hk2 h2]
  rw [if_neg (by omega)]
  refine Ret.ok ⟨by simp [Nat.mul_comm], fun i c y z hi hc hy hz => ?_⟩
  rw [get_ofFn _ (by simp [*, Nat.mul_comm])]
  simp only [List.getD_cons_succ, List.getD_cons_zero, Nat.mul_div_cancel_left og hG]
  have e2 := sum_group (n := og) (group_lt hc) fun o => ∑ u ∈ Finset.range kh, ∑ v ∈ Finset.range kw,
        Torch.padGet oh ow (X i o) ((y : Int) + ph - (u * dh : Nat)) ((z : Int) + pw - (v * dw : Nat)) * K o (c % cg) u v
  rw [sumRange_range]
  have hcg : 0 < cg := by
    rcases Nat.eq_zero_or_pos cg with rfl | h
    · simp at hc
    · exact h
  refine Eq.trans (Finset.sum_congr rfl fun o ho => ?_) (e2.trans (Finset.sum_congr rfl fun o ho => ?_))
  · rw [sumRange_range]
    refine Finset.sum_congr rfl fun u hu => ?_
    rw [sumRange_range]
    refine Finset.sum_congr rfl fun v hv => ?_
    simp only [Finset.mem_range] at ho hu hv
    rw [hW.2 _ _ u v (lt_pair (group_lt hc) ho) (Nat.mod_lt _ hcg) hu hv]
    congr 1
    simp only [Torch.strideGet, Nat.cast_one, Int.emod_one, Int.ediv_one, and_self, if_true]
    exact padGet_congr (g := X i (c / cg * og + o)) (fun yy zz h1 h2 => hx.2 i _ yy zz hi (lt_pair (group_lt hc) ho) h1 h2) _ _
  · unfold denseK
    simp only [eq_comm (a := o / og)]
    split_ifs <;> simp

/-- the square of a sum with at most one term -/
theorem sq_unique {a b : Nat} {P : Fin a → Fin b → Prop} [∀ i j, Decidable (P i j)] (h : ∀ i j i' j', P i j → P i' j' → i = i' ∧ j = j')
    (F : Fin a → Fin b → ℝ) :
    (∑ i, ∑ j, if P i j then F i j else 0) * (∑ i, ∑ j, if P i j then F i j else 0) = ∑ i, ∑ j, if P i j then F i j * F i j else 0 := by
  by_cases hp : ∃ i j, P i j
  · obtain ⟨i, j, hp⟩ := hp
    have key : ∀ H : Fin a → Fin b → ℝ, (∑ i, ∑ j, if P i j then H i j else 0) = H i j := by
      intro H
      rw [Finset.sum_eq_single i, Finset.sum_eq_single j, if_pos hp]
      · intro j' _ hj
        rw [if_neg fun hc => hj (h _ _ _ _ hc hp).2]
      · simp
      · intro i' _ hi
        exact Finset.sum_eq_zero fun j' _ => if_neg fun hc => hi (h _ _ _ _ hc hp).1
      · simp
    rw [key, key]
  · have key : ∀ H : Fin a → Fin b → ℝ, (∑ i, ∑ j, if P i j then H i j else 0) = 0 :=
      fun H => Finset.sum_eq_zero fun i _ => Finset.sum_eq_zero fun j _ => if_neg fun hc => hp ⟨i, j, hc⟩
    rw [key, key, zero_mul]

namespace GConv
variable {g : GConv} {bId : Option Nat}

theorem sq_J (W : Nat → ℝ) : sq (g.J W) = g.J fun q => W q * W q := by
  funext k m
  simp only [sq, J]
  rw [sq_unique]
  · refine Finset.sum_congr rfl fun i _ => Finset.sum_congr rfl fun j _ => if_congr Iff.rfl ?_ rfl
    simp only [ker]
    split_ifs <;> simp
  · rintro i j i' j' ⟨h1, h2⟩ ⟨h3, h4⟩
    have e1 : (i : Nat) * g.dh = i' * g.dh := by omega
    have e2 : (j : Nat) * g.dw = j' * g.dw := by omega
    exact ⟨Fin.ext (Nat.eq_of_mul_eq_mul_right g.pdh e1), Fin.ext (Nat.eq_of_mul_eq_mul_right g.pdw e2)⟩

/-- the forward map is linear -/
theorem F_eq (W : Nat → ℝ) (x : Fin (g.c1 * g.h1 * g.w1) → ℝ) : g.F W x = g.J W *ᵥ x := by
  funext k
  simp only [F, mulVec, dotProduct]
  rw [sum_pix]
  refine Finset.sum_congr rfl fun c _ => ?_
  obtain ⟨H, hH⟩ : ∃ H : Nat → Nat → ℝ, ∀ (u : Fin g.h1) (v : Fin g.w1), H u v = x (pix c u v) :=
    ⟨fun u v => if h : u < g.h1 ∧ v < g.w1 then x (pix c ⟨u, h.1⟩ ⟨v, h.2⟩) else 0, fun u v => by simp⟩
  have e : ∀ (i : Fin g.kh) (j : Fin g.kw), padAt (fun (u : Fin g.h1) (v : Fin g.w1) => x (pix c u v)) (((row k : Nat) + i * g.dh : Nat) - (g.ph : Int))
      (((col k : Nat) + j * g.dw : Nat) - (g.pw : Int)) * g.ker W (chan k : Fin g.c2) c i j
      = ∑ u : Fin g.h1, ∑ v : Fin g.w1, if (row k : Nat) + i * g.dh = u + g.ph ∧ (col k : Nat) + j * g.dw = v + g.pw then
        g.ker W (chan k : Fin g.c2) c i j * x (pix c u v) else 0 := by
    intro i j
    rw [← Conv2d.padAt_nat hH, padGet_sum, Finset.sum_mul, Finset.sum_range]
    refine Finset.sum_congr rfl fun u _ => ?_
    rw [Finset.sum_mul, Finset.sum_range]
    refine Finset.sum_congr rfl fun v _ => ?_
    rw [ite_mul, zero_mul, hH]
    refine if_congr ?_ (mul_comm _ _) rfl
    omega
  simp only [e]
  rw [Finset.sum_congr rfl fun i _ => Finset.sum_comm, Finset.sum_comm]
  refine Finset.sum_congr rfl fun u _ => ?_
  rw [Finset.sum_congr rfl fun i _ => Finset.sum_comm, Finset.sum_comm]
  refine Finset.sum_congr rfl fun v _ => ?_
  simp only [J, row_pix, col_pix, chan_pix, Finset.sum_mul, ite_mul, zero_mul]

theorem sum_J {U : Fin (g.c2 * g.h2 * g.w2) → ℝ} {W : Nat → ℝ} {H : Nat → Nat → Nat → ℝ} (c : Fin g.c1) (y : Fin g.h1) (z : Fin g.w1)
    (eH : ∀ (o : Fin g.c2) (r : Fin g.h2) (s : Fin g.w2), H o r s = U (pix o r s)) :
    (∑ o ∈ Finset.range g.c2, ∑ i ∈ Finset.range g.kh, ∑ j ∈ Finset.range g.kw,
      Torch.padGet g.h2 g.w2 (H o) ((y : Nat) + (g.ph : Int) - (i * g.dh : Nat)) ((z : Nat) + (g.pw : Int) - (j * g.dw : Nat)) * g.ker W o c i j)
    = (U ᵥ* g.J W) (pix c y z) := by
  simp only [vecMul, dotProduct]
  rw [sum_pix, Finset.sum_range]
  refine Finset.sum_congr rfl fun o _ => ?_
  have e : ∀ i ∈ Finset.range g.kh, ∀ j ∈ Finset.range g.kw,
      Torch.padGet g.h2 g.w2 (H o) ((y : Nat) + (g.ph : Int) - (i * g.dh : Nat)) ((z : Nat) + (g.pw : Int) - (j * g.dw : Nat)) * g.ker W o c i j
      = ∑ r : Fin g.h2, ∑ s : Fin g.w2, if (r : Nat) + i * g.dh = y + g.ph ∧ (s : Nat) + j * g.dw = z + g.pw then
        U (pix o r s) * g.ker W o c i j else 0 := by
    intro i _ j _
    rw [padGet_sum, Finset.sum_mul, Finset.sum_range]
    refine Finset.sum_congr rfl fun r _ => ?_
    rw [Finset.sum_mul, Finset.sum_range]
    refine Finset.sum_congr rfl fun s _ => ?_
    rw [ite_mul, zero_mul, eH]
    refine if_congr ?_ rfl rfl
    omega
  rw [Finset.sum_congr rfl fun i hi => Finset.sum_congr rfl fun j hj => e i hi j hj]
  rw [Finset.sum_congr rfl fun i _ => Finset.sum_comm, Finset.sum_comm]
  refine Finset.sum_congr rfl fun r _ => ?_
  rw [Finset.sum_congr rfl fun i _ => Finset.sum_comm, Finset.sum_comm]
  refine Finset.sum_congr rfl fun s _ => ?_
  simp only [J, row_pix, col_pix, chan_pix, Finset.mul_sum, mul_ite, mul_zero]
  rw [Finset.sum_range]
  refine Finset.sum_congr rfl fun i _ => ?_
  rw [Finset.sum_range]

theorem fwdArgs_eq : (g.cfg bId).fwdArgs = { stride := (1, 1), padding := ((g.ph : Int), (g.pw : Int)), dilation := (g.dh, g.dw), groups := g.G } := rfl

section
variable {W : Tensor ℝ} (hW : W.shape = [g.c2, g.cg, g.kh, g.kw])
include hW

theorem convT {n : Nat} {m : Tensor ℝ} (hm : m.shape = [n, g.c2, g.h2, g.w2]) :
    Ret (Torch.convTranspose2d m W (g.cfg bId).fwdArgs) fun r => r.shape = [n, g.c1, g.h1, g.w1] ∧
      ∀ q, q < n → ∀ (c : Fin g.c1) (y : Fin g.h1) (z : Fin g.w1), r.data (((q * g.c1 + c) * g.h1 + y) * g.w1 + z)
        = ((fun k : Fin (g.c2 * g.h2 * g.w2) => m.data (q * (g.c2 * g.h2 * g.w2) + k)) ᵥ* g.J W.data) (pix c y z) := by
  rw [fwdArgs_eq]
  have n4 : N4 m n g.c2 g.h2 g.w2 fun q o r s => m.data (((q * g.c2 + o) * g.h2 + r) * g.w2 + s) := N4.of_data hm fun _ _ _ _ _ _ _ _ => rfl
  have w4 : N4 W g.c2 g.cg g.kh g.kw fun o c i j => W.data (((o * g.cg + c) * g.kh + i) * g.kw + j) := N4.of_data hW fun _ _ _ _ _ _ _ _ => rfl
  have key := convTranspose2d_specG n4 w4 g.pG g.pdh g.pdw g.pkh g.pkw g.ph1 g.pw1 g.eh g.ew
  refine key.mono fun r hr => ⟨hr.1, fun q hq c y z => ?_⟩
  rw [hr.data hq c.2 y.2 z.2]
  refine sum_J c y z (fun o r s => ?_)
  rw [pix_val]; congr 1; ring

variable {B : Nat} {x : Tensor ℝ} {X : Fin B → Fin (g.c1 * g.h1 * g.w1) → ℝ}

theorem forward_specG {bias : Option (Tensor ℝ)} (hb : ∀ t ∈ bias, t.shape = [g.c2]) (hx : IsBatch x B [g.c1, g.h1, g.w1] (g.c1 * g.h1 * g.w1) X) :
    Ret (Conv2d.forward (g.cfg bId) W bias x) fun v => IsBatch v B [g.c2, g.h2, g.w2] (g.c2 * g.h2 * g.w2) fun b k =>
      g.F W.data (X b) k + biasAt bias (chan k : Fin g.c2) := by
  rw [Conv2d.forward, fwdArgs_eq]
  have w4 : N4 W g.c2 g.cg g.kh g.kw fun o c i j => W.data (((o * g.cg + c) * g.kh + i) * g.kw + j) := N4.of_data hW fun _ _ _ _ _ _ _ _ => rfl
  have key := conv2d_specG (b := bias) hx.n4 w4 hb g.pG g.pdh g.pdw g.pkh g.pkw g.ph2 g.pw2 g.eh g.ew
  refine key.mono fun r hr => isBatch_img hr.1 fun b o y z => ?_
  rw [hr.data b.2 o.2 y.2 z.2, F]
  simp only [row_pix, col_pix, chan_pix]
  congr 1
  rw [Finset.sum_range]
  refine Finset.sum_congr rfl fun c _ => ?_
  rw [Finset.sum_range]
  refine Finset.sum_congr rfl fun i _ => ?_
  rw [Finset.sum_range]
  refine Finset.sum_congr rfl fun j _ => ?_
  rw [Conv2d.padAt_nat (img := fun u v => X b (pix c u v)) fun u v => hx.img b c u v]
  rfl

theorem vjpI_spec {u : Tensor ℝ} {U : Fin B → Fin (g.c2 * g.h2 * g.w2) → ℝ} (hu : IsVec u B (g.c2 * g.h2 * g.w2) U) :
    Ret (do
      let v ← u.reshape [B, g.c2, g.h2, g.w2]
      let r ← Torch.convTranspose2d v W (g.cfg bId).fwdArgs
      r.reshape [B, g.c1 * g.h1 * g.w1]) fun t =>
      IsVec t B (g.c1 * g.h1 * g.w1) fun b => U b ᵥ* g.J W.data := by
  refine (reshape_data (by rw [Tensor.numel, hu.1]; simp only [size_cons, size_nil]; ring)).bind fun v hv => ?_
  refine (convT hW hv.1).bind fun r hr => ?_
  refine (reshape_data (by rw [Tensor.numel, hr.1]; simp only [size_cons, size_nil]; ring)).mono fun t ht => isVec_img ht.1 fun b c y z => ?_
  rw [ht.2, hr.2 b b.2]
  congr 2
  funext k
  rw [hv.2, hu.data]

theorem mjpI_spec {rows : Nat} {m : Tensor ℝ} {Z : Fin B → Matrix (Fin rows) (Fin (g.c2 * g.h2 * g.w2)) ℝ} (hm : IsMat m B rows (g.c2 * g.h2 * g.w2) Z) :
    Ret (do
      let m ← m.movedim [-1] [-2]
      let m ← m.reshape [B, g.c2, g.h2, g.w2, rows]
      let m ← m.movedim [1, 2, 3] [-3, -2, -1]
      let m ← m.reshapeInfer [] [g.c2, g.h2, g.w2]
      let r ← Torch.convTranspose2d m W (g.cfg bId).fwdArgs
      let r ← r.reshape [B, rows, g.c1, g.h1, g.w1]
      let r ← r.movedim [-3, -2, -1] [1, 2, 3]
      let r ← r.reshape [B, g.c1 * g.h1 * g.w1, rows]
      r.movedim [1] [2]) fun t =>
      IsMat t B rows (g.c1 * g.h1 * g.w1) fun b => Z b * g.J W.data := by
  have p1 : 0 < g.c2 := Nat.mul_pos g.pG g.pog
  have p2 := g.ph2; have p3 := g.pw2
  refine (movedim_3_swap hm.n3).bind fun m1 hm1 => ?_
  refine (reshape_data (by rw [hm1.numel]; simp only [size_cons, size_nil]; ring)).bind fun m2 hm2 => ?_
  have n2 : N5 m2 B g.c2 g.h2 g.w2 rows fun b o r s q => m.data ((b * rows + q) * (g.c2 * g.h2 * g.w2) + ((o * g.h2 + r) * g.w2 + s)) :=
    N5.of_data hm2.1 fun b o r s q hb ho hr hs hq => by
      rw [hm2.2, ← hm1.data hb (lt_pair (lt_pair ho hr) hs) hq]; congr 1; ring
  refine (movedim_5_last n2).bind fun m3 hm3 => ?_
  refine (reshapeInfer_data (q := B * rows) (by simp only [size_cons, size_nil]; positivity)
    (by rw [hm3.numel]; simp only [size_cons, size_nil]; ring)).bind fun m4 hm4 => ?_
  refine (convT hW (n := B * rows) (by rw [hm4.1]; rfl)).bind fun r hr => ?_
  refine (reshape_data (by rw [Tensor.numel, hr.1]; simp only [size_cons, size_nil]; ring)).bind fun r1 hr1 => ?_
  have n5 : N5 r1 B rows g.c1 g.h1 g.w1 fun b q c y z => r.data ((((b * rows + q) * g.c1 + c) * g.h1 + y) * g.w1 + z) :=
    N5.of_data hr1.1 fun _ _ _ _ _ _ _ _ _ _ => by rw [hr1.2]
  refine (movedim_5_back n5).bind fun r2 hr2 => ?_
  refine (reshape_data (by rw [hr2.numel]; simp only [size_cons, size_nil]; ring)).bind fun r3 hr3 => ?_
  have n6 : N3 r3 B (g.c1 * g.h1 * g.w1) rows fun b i q => r3.data ((b * (g.c1 * g.h1 * g.w1) + i) * rows + q) := N3.of_data hr3.1 fun _ _ _ _ _ _ => rfl
  refine (movedim_3_12 n6).mono fun t ht => ht.mat fun b q i => ?_
  obtain ⟨c, y, z, rfl⟩ := pix_surj i
  have e1 := hr2.data b.2 c.2 y.2 z.2 q.2
  rw [hr3.2, pix_val, show ((b : Nat) * (g.c1 * g.h1 * g.w1) + ((c * g.h1 + y) * g.w1 + z)) * rows + q
      = ((((b : Nat) * g.c1 + c) * g.h1 + y) * g.w1 + z) * rows + q by ring, e1,
    hr.2 _ (lt_pair b.2 q.2) c y z, mul_apply_eq_vecMul]
  congr 2
  funext k
  obtain ⟨o, r', s, rfl⟩ := pix_surj k
  have e2 := hm3.data b.2 q.2 o.2 r'.2 s.2
  rw [hm4.2, ← hm.data', pix_val, ← e2]
  congr 1; ring

theorem diagI_spec (hx : IsBatch x B [g.c1, g.h1, g.w1] (g.c1 * g.h1 * g.w1) X)
    {v m : Tensor ℝ} {Y : Fin B → Fin (g.c2 * g.h2 * g.w2) → ℝ} (hv : IsBatch v B [g.c2, g.h2, g.w2] (g.c2 * g.h2 * g.w2) Y)
    {U : Fin B → Fin (g.c2 * g.h2 * g.w2) → ℝ} (hm : IsVec m B (g.c2 * g.h2 * g.w2) U) :
    Ret (Conv2d.jTmjpInputDiag (g.cfg bId) W x v m) fun t =>
      IsVec t B (g.c1 * g.h1 * g.w1) fun b => U b ᵥ* sq (g.J W.data) := by
  have p1 : 0 < g.c2 := Nat.mul_pos g.pG g.pog
  have p2 := g.ph2; have p3 := g.pw2
  simp only [Conv2d.jTmjpInputDiag, hx.dims4, hv.dims4, Res.bind_ok]
  refine (reshape_data (by rw [Tensor.numel, hm.1]; simp only [size_cons, size_nil]; ring)).bind fun m1 hm1 => ?_
  have n1 : N4 m1 B g.c2 g.h2 g.w2 fun b o r s => m.data (((b * g.c2 + o) * g.h2 + r) * g.w2 + s) := N4.of_data hm1.1 fun _ _ _ _ _ _ _ _ => by rw [hm1.2]
  refine (movedim_4_last n1).bind fun m2 hm2 => ?_
  refine (reshapeInfer_data (q := B) (by simp only [size_cons, size_nil]; positivity)
    (by rw [hm2.numel]; simp only [size_cons, size_nil]; ring)).bind fun m3 hm3 => ?_
  refine (convT (W := W.map fun a => a * a) hW (n := B) (by rw [hm3.1]; rfl)).bind fun r hr => ?_
  refine (reshape_data (by rw [Tensor.numel, hr.1])).bind fun r1 hr1 => ?_
  have n5 : N4 r1 B g.c1 g.h1 g.w1 fun b c y z => r.data (((b * g.c1 + c) * g.h1 + y) * g.w1 + z) :=
    N4.of_data hr1.1 fun _ _ _ _ _ _ _ _ => by rw [hr1.2]
  refine (movedim_4_back n5).bind fun r2 hr2 => ?_
  refine (reshape_data (by rw [hr2.numel]; simp only [size_cons, size_nil]; ring)).mono fun t ht => isVec_img ht.1 fun b c y z => ?_
  rw [ht.2, hr2.data b.2 c.2 y.2 z.2, hr.2 b b.2, sq_J]
  simp only [Tensor.map]
  congr 2
  funext k
  obtain ⟨o, r', s, rfl⟩ := pix_surj k
  have e2 := hm2.data b.2 o.2 r'.2 s.2
  rw [hm3.2, ← hm.data, pix_val]
  refine Eq.trans ?_ (e2.trans ?_) <;> (congr 1; ring)

variable {bias : Option (Tensor ℝ)}

theorem mjpSomeI (hx : IsBatch x B [g.c1, g.h1, g.w1] (g.c1 * g.h1 * g.w1) X)
    {v m : Tensor ℝ} {Y : Fin B → Fin (g.c2 * g.h2 * g.w2) → ℝ} (hv : IsBatch v B [g.c2, g.h2, g.w2] (g.c2 * g.h2 * g.w2) Y)
    {rows : Nat} {Z : Fin B → Matrix (Fin rows) (Fin (g.c2 * g.h2 * g.w2)) ℝ} (hm : IsMat m B rows (g.c2 * g.h2 * g.w2) Z) :
    Ret (Conv2d.mjpSome (g.cfg bId) W bias x v m .input) (IsSome fun t => IsMat t B rows (g.c1 * g.h1 * g.w1) fun b => Z b * g.J W.data) := by
  have hd : m.dim 1 = .ok rows := by simp [Tensor.dim, hm.1]
  simp only [Conv2d.mjpSome, hx.dims4, hv.dims4, Res.bind_ok, hd]
  refine (Ret.assertR hm.1).bind fun _ _ => ?_
  have := (mjpI_spec (bId := bId) hW hm).some
  simpa only [map_bind] using this

theorem jTfull (hx : IsBatch x B [g.c1, g.h1, g.w1] (g.c1 * g.h1 * g.w1) X)
    {v m : Tensor ℝ} {Y : Fin B → Fin (g.c2 * g.h2 * g.w2) → ℝ} (hv : IsBatch v B [g.c2, g.h2, g.w2] (g.c2 * g.h2 * g.w2) Y)
    {Z : Fin B → Matrix (Fin (g.c2 * g.h2 * g.w2)) (Fin (g.c2 * g.h2 * g.w2)) ℝ} (hm : IsMat m B (g.c2 * g.h2 * g.w2) (g.c2 * g.h2 * g.w2) Z) :
    Ret (Conv2d.jTmjpInputFull (g.cfg bId) W bias x v m) fun t => IsMat t B (g.c1 * g.h1 * g.w1) (g.c1 * g.h1 * g.w1) fun b =>
      (g.J W.data)ᵀ * Z b * g.J W.data := by
  simp only [Conv2d.jTmjpInputFull, Conv2d.mjp, Conv2d.getVal, Res.bind_ok]
  obtain ⟨r, e, hr⟩ := (mjpSomeI (bId := bId) (bias := bias) hW hx hv hm).exists_some
  simp only [e, needR, Res.bind_ok]
  refine (Conv2d.swap_mat' hr).bind fun r1 hr1 => ?_
  obtain ⟨r2, e2, hr2⟩ := (mjpSomeI (bId := bId) (bias := bias) hW hx hv hr1).exists_some
  simp only [e2, Res.bind_ok]
  refine (Conv2d.swap_mat' hr2).mono fun t ht => ht.congr fun b i j => ?_
  rw [transpose_mul, transpose_transpose, Matrix.mul_assoc]

end

end GConv
end NNJ
