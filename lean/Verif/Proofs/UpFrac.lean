import Verif.Spec.Fractional
import Verif.Proofs.LeafUpsample
import Verif.Proofs.DerivAct
import Verif.Proofs.NetFacts

/-! Upsample with a factor `num / den ≥ 1`. -/

namespace NNJ
open Tensor Matrix
namespace Upsample

section
variable {num den c h w : Nat}

/-- the matrix of the forward map -/
def qJ (hd : 0 < den) : Matrix (Fin (c * upLen num den h * upLen num den w)) (Fin (c * h * w)) ℝ :=
  fun k m => if m = upSrcQ hd k then 1 else 0

/-- the matrix that the code multiplies with, when it returns: sums over disjoint squares of `num / den` pixels -/
def qP : Matrix (Fin (c * upLen num den h * upLen num den w)) (Fin (c * h * w)) ℝ :=
  fun k m => if chan k = chan m ∧ (row k : Nat) / (num / den) = row m ∧ (col k : Nat) / (num / den) = col m then 1 else 0

/-- the sizes fit: pooling the enlarged image gives the size of the original -/
def Fits (num den h : Nat) : Prop := upLen num den h / (num / den) = h

theorem int_pos (hd : 0 < den) (hn : den ≤ num) : 0 < num / den := Nat.div_pos hn hd

theorem le_upLen (hd : 0 < den) : h * (num / den) ≤ upLen num den h := by
  unfold upLen
  rw [Nat.le_div_iff_mul_le hd, Nat.mul_assoc]
  exact Nat.mul_le_mul_left h (Nat.div_mul_le_self num den)

theorem le_pool (hd : 0 < den) (hn : den ≤ num) : h ≤ upLen num den h / (num / den) :=
  (Nat.le_div_iff_mul_le (int_pos hd hn)).2 (le_upLen hd)

theorem fits_dvd (hd : 0 < den) (hn : den ≤ num) (h1 : den ∣ num) : Fits num den h := by
  obtain ⟨s, rfl⟩ := h1
  have e : den * s / den = s := Nat.mul_div_cancel_left s hd
  have hs : 0 < s := by
    rcases Nat.eq_zero_or_pos s with rfl | h0
    · omega
    · exact h0
  unfold Fits upLen
  rw [e, show h * (den * s) = den * (h * s) by ring, Nat.mul_div_cancel_left _ hd, Nat.mul_div_cancel _ hs]

theorem fits_one (hd : 0 < den) (hn : den ≤ num) : Fits num den 1 := by
  unfold Fits upLen
  rw [Nat.one_mul, Nat.div_self (int_pos hd hn)]

/-- positions: pooling and copying agree -/
theorem pos_dvd (hd : 0 < den) (h1 : den ∣ num) (i : Nat) : i * den / num = i / (num / den) := by
  obtain ⟨s, rfl⟩ := h1
  rw [Nat.mul_div_cancel_left s hd, Nat.mul_comm i den, Nat.mul_div_mul_left _ _ hd]

theorem qP_eq {hd : 0 < den} (h1 : den ∣ num ∨ (h = 1 ∧ w = 1)) :
    (qP : Matrix (Fin (c * upLen num den h * upLen num den w)) (Fin (c * h * w)) ℝ) = qJ hd := by
  funext k m
  obtain ⟨a, y, z, rfl⟩ := pix_surj m
  have hp : ∀ {g : Nat} (i : Fin (upLen num den g)), den ∣ num ∨ g = 1 → (upPos hd i : Nat) = (i : Nat) / (num / den) := by
    rintro g i (h1 | rfl)
    · exact pos_dvd hd h1 i
    · have := (upPos hd i).2
      rw [Nat.lt_one_iff.1 this, Nat.div_eq_of_lt]
      have := i.2
      simpa only [upLen, Nat.one_mul] using this
  simp only [qP, qJ, upSrcQ, pix_inj, chan_pix, row_pix, col_pix]
  refine if_congr ?_ rfl rfl
  rw [← hp (row k) (h1.imp_right And.left), ← hp (col k) (h1.imp_right And.right), Fin.ext_iff (a := y), Fin.ext_iff (a := z)]
  constructor
  · rintro ⟨p, q, r⟩; exact ⟨p.symm, q.symm, r.symm⟩
  · rintro ⟨p, q, r⟩; exact ⟨p.symm, q.symm, r.symm⟩

/-- where copying and pooling differ -/
theorem pos_ne (h1 : ¬ den ∣ num) : (num / den) * den / num = 0 := by
  refine Nat.div_eq_of_lt ?_
  have := Nat.div_mul_le_self num den
  rcases Nat.lt_or_eq_of_le this with h2 | h2
  · exact h2
  · exact absurd ⟨num / den, by rw [Nat.mul_comm]; exact h2.symm⟩ h1

theorem qP_ne {hd : 0 < den} (hc : 0 < c) (hh : 0 < h) (hw : 0 < w) (hn : den ≤ num) (h1 : ¬ (den ∣ num ∨ (h = 1 ∧ w = 1))) :
    (qP : Matrix (Fin (c * upLen num den h * upLen num den w)) (Fin (c * h * w)) ℝ) ≠ qJ hd := by
  intro e
  have hs := int_pos hd hn
  obtain ⟨h2, h3⟩ := not_or.1 h1
  have lt0 : ∀ {g : Nat}, 0 < g → 0 < upLen num den g := fun hg => lt_of_lt_of_le (Nat.mul_pos hg hs) (le_upLen hd)
  have lts : ∀ {g : Nat}, 1 < g → num / den < upLen num den g := fun {g} hg => by
    refine lt_of_lt_of_le ?_ (le_upLen hd)
    calc num / den < 2 * (num / den) := by omega
      _ ≤ g * (num / den) := Nat.mul_le_mul_right _ hg
  by_cases hh1 : h = 1
  · have hw1 : 1 < w := by
      rcases Nat.lt_or_ge 1 w with q | q
      · exact q
      · exact absurd ⟨hh1, by omega⟩ h3
    have := congrFun (congrFun e (pix ⟨0, hc⟩ ⟨0, lt0 hh⟩ ⟨num / den, lts hw1⟩)) (pix ⟨0, hc⟩ ⟨0, hh⟩ ⟨0, hw⟩)
    simp [qP, qJ, upSrcQ, upPos, pos_ne h2, Nat.div_self hs] at this
  · have hh1 : 1 < h := by omega
    have := congrFun (congrFun e (pix ⟨0, hc⟩ ⟨num / den, lts hh1⟩ ⟨0, lt0 hw⟩)) (pix ⟨0, hc⟩ ⟨0, hh⟩ ⟨0, hw⟩)
    simp [qP, qJ, upSrcQ, upPos, pos_ne h2, Nat.div_self hs] at this

end

/-! ### the methods -/

theorem convLen_poolQ {h s : Nat} (hs : 0 < s) (hh : s ≤ h) : Torch.convLen h s s 0 1 = (h / s : Nat) := by
  unfold Torch.convLen
  have e : ((h : Int) + 2 * 0 - ((1 : Nat) : Int) * ((s : Int) - 1) - 1) = (h : Int) + (-1) * s := by
    push_cast; ring
  rw [e, Int.add_mul_ediv_right _ _ (by omega)]
  push_cast; ring

/-- sums over disjoint squares -/
theorem pool_specQ {t : Tensor ℝ} {rows H W num den : Nat} (hs : 0 < num / den) (hH : num / den ≤ H) (hW : num / den ≤ W)
    (hn : t.numel = rows * H * W) :
    Ret (pool ⟨num, den⟩ t rows H W) fun r => r.numel = rows * (H / (num / den)) * (W / (num / den)) ∧
      ∀ i y z, i < rows → y < H / (num / den) → z < W / (num / den) → r.data ((i * (H / (num / den)) + y) * (W / (num / den)) + z)
        = ∑ u ∈ Finset.range (num / den), ∑ v ∈ Finset.range (num / den),
          t.data ((i * H + (y * (num / den) + u)) * W + (z * (num / den) + v)) := by
  have hi : Scale.int ⟨num, den⟩ = num / den := rfl
  simp only [pool, hi]
  generalize num / den = s at hs hH hW ⊢
  refine (reshape_data (by simp [hn, size_cons, Nat.mul_assoc])).bind fun r hr => ?_
  have hr4 : N4 r rows 1 H W fun i _ y z => t.data ((i * H + y) * W + z) :=
    N4.of_data hr.1 fun i j k l _ hj _ _ => by
      obtain rfl : j = 0 := by omega
      rw [hr.2]; congr 1; ring
  have h1 : N4 (ones [1, 1, s, s] : Tensor ℝ) 1 1 s s fun _ _ _ _ => 1 := N4.of_data rfl fun _ _ _ _ _ _ _ _ => rfl
  have key := conv2d_spec (a := { stride := (s, s), padding := (0, 0), dilation := (1, 1), groups := 1 }) (b := none) hr4 h1 (by simp) rfl
    rfl hs hs (le_refl _) (le_refl _) (Nat.div_pos hH hs) (Nat.div_pos hW hs) (convLen_poolQ hs hH) (convLen_poolQ hs hW)
  refine key.mono fun q hq => ⟨?_, fun i y z hi hy hz => ?_⟩
  · rw [hq.numel, Nat.mul_one]
  have := hq.data hi Nat.zero_lt_one hy hz
  rw [show ((i * 1 + 0) * (H / s) + y) * (W / s) + z = (i * (H / s) + y) * (W / s) + z by ring] at this
  rw [this]
  simp only [biasAt, add_zero, Finset.sum_range_one, mul_one]
  refine Finset.sum_congr rfl fun u hu => Finset.sum_congr rfl fun v hv => ?_
  simp only [Finset.mem_range] at hu hv
  have b1 : y * s + u < H := lt_of_lt_of_le (lt_pair hy hu) (Nat.div_mul_le_self H s)
  have b2 : z * s + v < W := lt_of_lt_of_le (lt_pair hz hv) (Nat.div_mul_le_self W s)
  unfold Torch.padGet
  rw [if_pos ⟨by omega, by omega, by omega, by omega⟩]
  simp only [sub_zero, Int.toNat_natCast]

/-- a sum restricted to one interval of `s` positions -/
theorem sum_interval {H s y : Nat} (hs : 0 < s) (hy : y * s + s ≤ H) (g : Fin H → ℝ) (G : Nat → ℝ) (e : ∀ i : Fin H, G i = g i) :
    ∑ i : Fin H, (if (i : Nat) / s = y then g i else 0) = ∑ u ∈ Finset.range s, G (y * s + u) := by
  have e1 : ∑ i : Fin H, (if (i : Nat) / s = y then g i else 0) = ∑ i ∈ Finset.range H, if i / s = y then G i else 0 := by
    rw [Finset.sum_range]; exact Finset.sum_congr rfl fun i _ => by rw [e]
  rw [e1, ← Finset.sum_filter]
  refine Finset.sum_nbij' (fun i => i - y * s) (fun u => y * s + u) ?_ ?_ ?_ ?_ ?_
  · intro i hi
    simp only [Finset.mem_filter, Finset.mem_range] at hi ⊢
    have := Nat.div_add_mod i s
    have := Nat.mod_lt i hs
    rw [hi.2, Nat.mul_comm s y] at *
    omega
  · intro u hu
    simp only [Finset.mem_filter, Finset.mem_range] at hu ⊢
    refine ⟨by omega, ?_⟩
    rw [Nat.mul_comm, Nat.mul_add_div hs, Nat.div_eq_of_lt hu, Nat.add_zero]
  · intro i hi
    simp only [Finset.mem_filter, Finset.mem_range] at hi ⊢
    have : y * s ≤ i := by rw [← hi.2]; exact Nat.div_mul_le_self i s
    omega
  · intro u _; simp
  · intro i hi
    simp only [Finset.mem_filter, Finset.mem_range] at hi ⊢
    have : y * s ≤ i := by rw [← hi.2]; exact Nat.div_mul_le_self i s
    congr 1; omega

section
variable {num den c h w : Nat}

theorem sum_qP (hs : 0 < num / den) (fh : Fits num den h) (fw : Fits num den w) {F : Nat → Nat → ℝ}
    {g : Fin (c * upLen num den h * upLen num den w) → ℝ} (a : Fin c) (y : Fin h) (z : Fin w)
    (e : ∀ (y' : Fin (upLen num den h)) (z' : Fin (upLen num den w)), F y' z' = g (pix a y' z')) :
    ∑ u ∈ Finset.range (num / den), ∑ v ∈ Finset.range (num / den), F (y * (num / den) + u) (z * (num / den) + v)
      = ∑ k, g k * qP k (pix a y z) := by
  have bd : ∀ {q : Nat} (i : Fin q), Fits num den q → (i : Nat) * (num / den) + num / den ≤ upLen num den q := by
    intro q i hq
    have h1 : (i : Nat) + 1 ≤ upLen num den q / (num / den) := by rw [hq]; exact i.2
    have h2 := (Nat.le_div_iff_mul_le hs).1 h1
    rwa [Nat.add_mul, Nat.one_mul] at h2
  rw [sum_pix, Finset.sum_eq_single a]
  · rw [← sum_interval hs (bd y fh) (fun y' => ∑ v ∈ Finset.range (num / den), F y' (z * (num / den) + v))
      (fun y' => ∑ v ∈ Finset.range (num / den), F y' (z * (num / den) + v)) fun _ => rfl]
    refine Finset.sum_congr rfl fun y' _ => ?_
    by_cases hy : (y' : Nat) / (num / den) = y
    · rw [if_pos hy, ← sum_interval hs (bd z fw) (fun z' => g (pix a y' z')) (fun z' => F y' z') (e y')]
      refine Finset.sum_congr rfl fun z' _ => ?_
      simp [qP, hy]
    · rw [if_neg hy]
      refine (Finset.sum_eq_zero fun z' _ => ?_).symm
      simp [qP, hy]
  · intro a' _ ha'
    refine Finset.sum_eq_zero fun y' _ => Finset.sum_eq_zero fun z' _ => ?_
    simp [qP, ha']
  · simp

theorem forward_specQ {B : Nat} {x : Tensor ℝ} {X : Fin B → Fin (c * h * w) → ℝ} (hd : 0 < den) (hn : den ≤ num)
    (hh : 0 < h) (hw : 0 < w) (hx : IsBatch x B [c, h, w] (c * h * w) X) :
    Ret (forward ⟨num, den⟩ x) fun v => IsBatch v B [c, upLen num den h, upLen num den w] (c * upLen num den h * upLen num den w)
      fun b k => X b (upSrcQ hd k) := by
  have lt0 : ∀ {g : Nat}, 0 < g → 0 < upLen num den g := fun hg => lt_of_lt_of_le (Nat.mul_pos hg (int_pos hd hn)) (le_upLen hd)
  have h1 := lt0 hh
  have h2 := lt0 hw
  simp only [forward, Torch.upsampleNearest, hx.1]
  rw [if_neg (by omega), if_neg (by simp only [upLen] at h1 h2; omega)]
  refine Ret.ok (isBatch_img rfl fun b a y z => ?_)
  have e := ofFn_data_ravel (s := [B, c, upLen num den h, upLen num den w]) (idx := [(b : Nat), (a : Nat), (y : Nat), (z : Nat)])
    (fun idx => x.get [idx.getD 0 0, idx.getD 1 0, min (idx.getD 2 0 * den / num) (h - 1), min (idx.getD 3 0 * den / num) (w - 1)]) (by simp)
  have hr : ravel [B, c, upLen num den h, upLen num den w] [(b : Nat), (a : Nat), (y : Nat), (z : Nat)]
      = (((b : Nat) * c + a) * upLen num den h + y) * upLen num den w + z := by
    simp [ravel]; ring
  rw [hr] at e
  refine e.trans ?_
  simp only [upSrcQ, chan_pix, row_pix, col_pix, ← hx.img]
  simp only [List.getD_cons_succ, List.getD_cons_zero]
  have m1 : min ((y : Nat) * den / num) (h - 1) = upPos hd y := by
    have := (upPos hd y).2
    simp only [upPos] at this ⊢; omega
  have m2 : min ((z : Nat) * den / num) (w - 1) = upPos hd z := by
    have := (upPos hd z).2
    simp only [upPos] at this ⊢; omega
  rw [m1, m2, get4 hx.1]
  congr 1; ring

theorem le_upLen' (hd : 0 < den) (hh : 0 < h) : num / den ≤ upLen num den h :=
  (Nat.le_mul_of_pos_left _ hh).trans (le_upLen hd)

/-- pooling matrices when the sizes fit -/
theorem pool_matQ {B r : Nat} {t : Tensor ℝ} {Z : Fin B → Matrix (Fin r) (Fin (c * upLen num den h * upLen num den w)) ℝ}
    (hd : 0 < den) (hn : den ≤ num) (hh : 0 < h) (hw : 0 < w) (fh : Fits num den h) (fw : Fits num den w)
    (ht : IsMat t B r (c * upLen num den h * upLen num den w) Z) :
    Ret (pool ⟨num, den⟩ t (B * r * c) (upLen num den h) (upLen num den w) >>= fun q => q.reshape [B, r, c * h * w]) fun q =>
      IsMat q B r (c * h * w) fun b => Z b * qP := by
  have hs := int_pos hd hn
  refine (pool_specQ hs (le_upLen' hd hh) (le_upLen' hd hw) (by rw [Tensor.numel, ht.1]; simp [size_cons]; ring)).bind fun q hq => ?_
  rw [fh, fw] at hq
  refine (reshape_data (by rw [hq.1]; simp [size_cons]; ring)).mono fun o ho => isMat_img ho.1 fun b i a y z => ?_
  rw [ho.2, hq.2 _ _ _ (lt_pair (lt_pair b.2 i.2) a.2) y.2 z.2]
  exact sum_qP hs fh fw (F := fun y z => t.data (((((b : Nat) * r + i) * c + a) * upLen num den h + y) * upLen num den w + z)) (g := Z b i) a y z
    (fun y' z' => by rw [← ht.img])

theorem pool_vecQ {B : Nat} {t : Tensor ℝ} {U : Fin B → Fin (c * upLen num den h * upLen num den w) → ℝ}
    (hd : 0 < den) (hn : den ≤ num) (hh : 0 < h) (hw : 0 < w) (fh : Fits num den h) (fw : Fits num den w)
    (ht : IsVec t B (c * upLen num den h * upLen num den w) U) :
    Ret (pool ⟨num, den⟩ t (B * c) (upLen num den h) (upLen num den w) >>= fun q => q.reshape [B, c * h * w]) fun q =>
      IsVec q B (c * h * w) fun b => U b ᵥ* qP := by
  have hs := int_pos hd hn
  refine (pool_specQ hs (le_upLen' hd hh) (le_upLen' hd hw) (by rw [Tensor.numel, ht.1]; simp [size_cons]; ring)).bind fun q hq => ?_
  rw [fh, fw] at hq
  refine (reshape_data (by rw [hq.1]; simp [size_cons]; ring)).mono fun o ho => isVec_img ho.1 fun b a y z => ?_
  rw [ho.2, hq.2 _ _ _ (lt_pair b.2 a.2) y.2 z.2]
  exact sum_qP hs fh fw (F := fun y z => t.data ((((b : Nat) * c + a) * upLen num den h + y) * upLen num den w + z)) (g := U b) a y z
    (fun y' z' => by rw [← ht.img])

/-- when the sizes do not fit, the `reshape` after the pooling raises -/
theorem pool_raises {rows : Nat} {t : Tensor ℝ} (hd : 0 < den) (hn : den ≤ num) (hh : 0 < h) (hw : 0 < w)
    (hf : ¬ (Fits num den h ∧ Fits num den w)) {shape : List Nat} (hr : 0 < rows) (hsh : size shape = rows * h * w)
    (ht : t.numel = rows * upLen num den h * upLen num den w) :
    ∃ e, (pool ⟨num, den⟩ t rows (upLen num den h) (upLen num den w) >>= fun q => q.reshape shape) = .error e := by
  have hs := int_pos hd hn
  obtain ⟨r, hr1, hr2, -⟩ := pool_specQ hs (le_upLen' hd hh) (le_upLen' hd hw) ht
  rw [hr1, Res.bind_ok, Tensor.reshape, if_neg]
  · exact ⟨_, rfl⟩
  · rw [hsh, hr2]
    have l1 : h ≤ upLen num den h / (num / den) := le_pool hd hn
    have l2 : w ≤ upLen num den w / (num / den) := le_pool hd hn
    intro e
    rw [Nat.mul_assoc, Nat.mul_assoc] at e
    have e := Nat.eq_of_mul_eq_mul_left hr e
    refine hf ⟨?_, ?_⟩
    · rcases Nat.lt_or_eq_of_le l1 with q | q
      · have := Nat.mul_lt_mul_of_lt_of_le q l2 (by omega)
        omega
      · exact q.symm
    · rcases Nat.lt_or_eq_of_le l2 with q | q
      · have := Nat.mul_lt_mul_of_le_of_lt l1 q (by omega)
        omega
      · exact q.symm

variable {B : Nat} {x : Tensor ℝ} {X : Fin B → Fin (c * h * w) → ℝ}

/-- `vjp` when the sizes fit -/
theorem vjp_fits {v : Tensor ℝ} {V} (hd : 0 < den) (hn : den ≤ num) (hh : 0 < h) (hw : 0 < w) (fh : Fits num den h) (fw : Fits num den w)
    (hx : IsBatch x B [c, h, w] (c * h * w) X) (hv : IsVec v B (c * upLen num den h * upLen num den w) V) :
    Ret (vjp ⟨num, den⟩ x none v .input) (IsSome fun t => IsVec t B (c * h * w) fun b => V b ᵥ* qP) := by
  simp only [vjp, getVal]
  refine (forward_specQ hd hn hh hw hx).bind fun y hy => ?_
  simp only [hx.dims4, hy.dims4, Res.bind_ok, assertR, hv.1]
  exact (pool_vecQ hd hn hh hw fh fw hv).some'

theorem vjp_misfit {v : Tensor ℝ} {V} (hd : 0 < den) (hn : den ≤ num) (hB : 0 < B) (hc : 0 < c) (hh : 0 < h) (hw : 0 < w)
    (hf : ¬ (Fits num den h ∧ Fits num den w))
    (hx : IsBatch x B [c, h, w] (c * h * w) X) (hv : IsVec v B (c * upLen num den h * upLen num den w) V) :
    ∃ e, vjp ⟨num, den⟩ x none v .input = .error e := by
  obtain ⟨y, hy1, hy⟩ := forward_specQ hd hn hh hw hx
  simp only [vjp, getVal, hy1, hx.dims4, hy.dims4, Res.bind_ok, assertR, hv.1]
  obtain ⟨e, he⟩ := pool_raises (t := v) (shape := [B, c * h * w]) hd hn hh hw hf (Nat.mul_pos hB hc) (by simp [size_cons]; ring)
    (by rw [Tensor.numel, hv.1]; simp [size_cons]; ring)
  refine ⟨e, ?_⟩
  revert he
  cases pool ⟨num, den⟩ v (B * c) (upLen num den h) (upLen num den w) with
  | error e' => simp
  | ok q => simp only [Res.bind_ok]; intro he; simp [he]

theorem mjp_fits {r : Nat} {M : Tensor ℝ} {Z} (hd : 0 < den) (hn : den ≤ num) (hh : 0 < h) (hw : 0 < w) (fh : Fits num den h) (fw : Fits num den w)
    (hx : IsBatch x B [c, h, w] (c * h * w) X) (hM : IsMat M B r (c * upLen num den h * upLen num den w) Z) {val : Option (Tensor ℝ)}
    (hval : ∀ y ∈ val, y.shape = [B, c, upLen num den h, upLen num den w]) :
    Ret (mjpSome ⟨num, den⟩ x val M .input) (IsSome fun t => IsMat t B r (c * h * w) fun b => Z b * qP) := by
  have hv' : Ret (getVal ⟨num, den⟩ x val) fun y => y.shape = [B, c, upLen num den h, upLen num den w] := by
    cases val with
    | none => exact (forward_specQ hd hn hh hw hx).mono fun _ hy => hy.1
    | some y => exact Ret.ok (hval y rfl)
  simp only [mjpSome]
  refine hv'.bind fun y hy => ?_
  have hd' : ∀ {i d}, [B, r, c * upLen num den h * upLen num den w][i]? = some d → M.dim i = .ok d := by
    intro i d hi; simp only [Tensor.dim, hM.1, hi]
  have hy4 : y.dims4 = .ok (B, c, upLen num den h, upLen num den w) := by simp [Tensor.dims4, hy]
  simp only [hx.dims4, hy4, Res.bind_ok, assertR, hd' (i := 0) rfl, hd' (i := 1) rfl, hd' (i := 2) rfl, and_self]
  exact (pool_matQ hd hn hh hw fh fw hM).some'

theorem mjp_misfit {r : Nat} {M : Tensor ℝ} {Z} (hd : 0 < den) (hn : den ≤ num) (hB : 0 < B) (hc : 0 < c) (hh : 0 < h) (hw : 0 < w) (hr : 0 < r)
    (hf : ¬ (Fits num den h ∧ Fits num den w))
    (hx : IsBatch x B [c, h, w] (c * h * w) X) (hM : IsMat M B r (c * upLen num den h * upLen num den w) Z) {val : Option (Tensor ℝ)}
    (hval : ∀ y ∈ val, y.shape = [B, c, upLen num den h, upLen num den w]) :
    ∃ e, mjpSome ⟨num, den⟩ x val M .input = .error e := by
  have hv' : Ret (getVal ⟨num, den⟩ x val) fun y => y.shape = [B, c, upLen num den h, upLen num den w] := by
    cases val with
    | none => exact (forward_specQ hd hn hh hw hx).mono fun _ hy => hy.1
    | some y => exact Ret.ok (hval y rfl)
  obtain ⟨y, hy1, hy⟩ := hv'
  have hd' : ∀ {i d}, [B, r, c * upLen num den h * upLen num den w][i]? = some d → M.dim i = .ok d := by
    intro i d hi; simp only [Tensor.dim, hM.1, hi]
  have hy4 : y.dims4 = .ok (B, c, upLen num den h, upLen num den w) := by simp [Tensor.dims4, hy]
  simp only [mjpSome, hy1, hx.dims4, hy4, Res.bind_ok, assertR, hd' (i := 0) rfl, hd' (i := 1) rfl, hd' (i := 2) rfl, and_self]
  obtain ⟨e, he⟩ := pool_raises (t := M) (shape := [B, r, c * h * w]) hd hn hh hw hf (Nat.mul_pos (Nat.mul_pos hB hr) hc) (by simp [size_cons]; ring)
    (by rw [Tensor.numel, hM.1]; simp [size_cons]; ring)
  refine ⟨e, ?_⟩
  revert he
  cases pool ⟨num, den⟩ M (B * r * c) (upLen num den h) (upLen num den w) with
  | error e' => simp
  | ok q => simp only [Res.bind_ok]; intro he; simp [he]

/-- `jacobian` is `mjp` with the identity -/
theorem jac_eq (hd : 0 < den) (hn : den ≤ num) (hh : 0 < h) (hw : 0 < w) (hx : IsBatch x B [c, h, w] (c * h * w) X) :
    ∃ y M, IsBatch y B [c, upLen num den h, upLen num den w] (c * upLen num den h * upLen num den w) (fun b k => X b (upSrcQ hd k)) ∧
      IsMat M B (c * upLen num den h * upLen num den w) (c * upLen num den h * upLen num den w) (fun _ => 1) ∧
      jacobian ⟨num, den⟩ x none .input = mjpSome ⟨num, den⟩ x (some y) M .input := by
  obtain ⟨y, hy1, hy⟩ := forward_specQ hd hn hh hw hx
  have h1 : IsVec (ones [B, c * upLen num den h * upLen num den w] : Tensor ℝ) B (c * upLen num den h * upLen num den w) fun _ _ => 1 :=
    ⟨rfl, fun _ _ => rfl⟩
  obtain ⟨M, hM1, hM⟩ := diagEmbed_vec h1
  refine ⟨y, M, hy, hM.congr fun b i j => by rw [diagonal_one], ?_⟩
  simp only [jacobian, getVal, hy1, hx.dims4, hy.dims4, Res.bind_ok, assertR, hM1]
  simp

theorem forwardMapQ (hd : 0 < den) (hn : den ≤ num) (hh : 0 < h) (hw : 0 < w) (id : Nat) (st : Store ℝ) :
    forwardMap (mod ⟨num, den⟩ id) st [c, h, w]
      = fun (x : Fin (c * h * w) → ℝ) (k : Fin (c * upLen num den h * upLen num den w)) => x (upSrcQ hd k) := by
  funext z i
  obtain ⟨t, ht, hT⟩ := forward_specQ (num := num) hd hn hh hw (ofSample_isBatch (s := [c, h, w]) z)
  have : ((mod ⟨num, den⟩ id).forward (ofSample [c, h, w] z) st).1 = .ok t := ht
  simp only [forwardMap, this]
  simpa using hT.2 0 i

theorem derivQ (hd : 0 < den) (z : Fin (c * h * w) → ℝ) :
    HasFDerivAt (fun (x : Fin (c * h * w) → ℝ) (k : Fin (c * upLen num den h * upLen num den w)) => x (upSrcQ hd k)) (linMap (qJ hd)) z := by
  have e : (fun (x : Fin (c * h * w) → ℝ) (k : Fin (c * upLen num den h * upLen num den w)) => x (upSrcQ hd k)) = linMap (qJ hd) := by
    funext x k
    simp [linMap_apply, mulVec, dotProduct, qJ]
  rw [e]
  exact (linMap _).hasFDerivAt

end

/-! ### calls that always raise -/

/-- the computation ends with an exception -/
def Fails {β : Type} (p : Res β) : Prop := ∃ e, p = .error e

theorem Fails.left {β γ : Type} {p : Res β} {f : β → Res γ} (h : Fails p) : Fails (p >>= f) := by
  obtain ⟨e, rfl⟩ := h; exact ⟨e, rfl⟩

theorem Fails.right {β γ : Type} (p : Res β) {f : β → Res γ} (h : ∀ b, Fails (f b)) : Fails (p >>= f) := by
  cases p with
  | error e => exact ⟨e, rfl⟩
  | ok b => exact h b

theorem Fails.map {β γ : Type} {p : Res β} {f : β → γ} (h : Fails p) : Fails (f <$> p) := by
  obtain ⟨e, rfl⟩ := h; exact ⟨e, rfl⟩

end Upsample
end NNJ
