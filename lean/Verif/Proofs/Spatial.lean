import Verif.Spec.Spatial
import Verif.Proofs.ConvCore
import Verif.Proofs.LeafDiag
import Verif.Model.Upsample

/-! Index arithmetic for images; the contract of Upsample. -/

namespace NNJ
open Tensor Matrix

section
variable {c h w s : Nat}

@[simp] theorem pix_val (a : Fin c) (y : Fin h) (z : Fin w) : ((pix a y z : Fin (c * h * w)) : Nat) = (a * h + y) * w + z := by
  simp only [pix, finProdFinEquiv_apply_val]; ring
@[simp] theorem chan_pix (a : Fin c) (y : Fin h) (z : Fin w) : chan (pix a y z) = a := by simp [chan, pix]
@[simp] theorem row_pix (a : Fin c) (y : Fin h) (z : Fin w) : row (pix a y z) = y := by simp [row, pix]
@[simp] theorem col_pix (a : Fin c) (y : Fin h) (z : Fin w) : col (pix a y z) = z := by simp [col, pix]

theorem pix_surj (k : Fin (c * h * w)) : ∃ a y z, k = pix a y z := by
  obtain ⟨⟨ay, z⟩, rfl⟩ := finProdFinEquiv.surjective k
  obtain ⟨⟨a, y⟩, rfl⟩ := finProdFinEquiv.surjective ay
  exact ⟨a, y, z, rfl⟩

theorem pix_inj {a a' : Fin c} {y y' : Fin h} {z z' : Fin w} : pix a y z = pix a' y' z' ↔ a = a' ∧ y = y' ∧ z = z' := by
  simp [pix, and_assoc]

theorem sum_pix {M : Type} [AddCommMonoid M] (g : Fin (c * h * w) → M) :
    ∑ k, g k = ∑ a : Fin c, ∑ y : Fin h, ∑ z : Fin w, g (pix a y z) := by
  rw [← finProdFinEquiv.sum_comp, Fintype.sum_prod_type, ← finProdFinEquiv.sum_comp, Fintype.sum_prod_type]
  rfl

theorem size_img : size [c, h, w] = c * h * w := by simp [size_cons, Nat.mul_assoc]

theorem IsBatch.n4 {t : Tensor ℝ} {B : Nat} {X : Fin B → Fin (c * h * w) → ℝ} (ht : IsBatch t B [c, h, w] (c * h * w) X) :
    N4 t B c h w fun b a y z => t.data (((b * c + a) * h + y) * w + z) :=
  N4.of_data ht.1 fun _ _ _ _ _ _ _ _ => rfl

/-- the entry of a batch of images -/
theorem IsBatch.img {t : Tensor ℝ} {B : Nat} {X : Fin B → Fin (c * h * w) → ℝ} (ht : IsBatch t B [c, h, w] (c * h * w) X)
    (b : Fin B) (a : Fin c) (y : Fin h) (z : Fin w) :
    t.data ((((b : Nat) * c + a) * h + y) * w + z) = X b (pix a y z) := by
  rw [← ht.2 b (pix a y z), pix_val]; congr 1; ring

theorem IsVec.img {t : Tensor ℝ} {B : Nat} {X : Fin B → Fin (c * h * w) → ℝ} (ht : IsVec t B (c * h * w) X)
    (b : Fin B) (a : Fin c) (y : Fin h) (z : Fin w) :
    t.data ((((b : Nat) * c + a) * h + y) * w + z) = X b (pix a y z) := by
  rw [← ht.data b (pix a y z), pix_val]; congr 1; ring

theorem IsMat.img {t : Tensor ℝ} {B r : Nat} {M : Fin B → Matrix (Fin r) (Fin (c * h * w)) ℝ} (ht : IsMat t B r (c * h * w) M)
    (b : Fin B) (i : Fin r) (a : Fin c) (y : Fin h) (z : Fin w) :
    t.data (((((b : Nat) * r + i) * c + a) * h + y) * w + z) = M b i (pix a y z) := by
  rw [← ht.data b i (pix a y z), pix_val]; congr 1; ring

/-- a tensor of flattened images, given by its entries -/
theorem isVec_img {t : Tensor ℝ} {B : Nat} {X : Fin B → Fin (c * h * w) → ℝ} (hs : t.shape = [B, c * h * w])
    (e : ∀ (b : Fin B) (a : Fin c) (y : Fin h) (z : Fin w), t.data ((((b : Nat) * c + a) * h + y) * w + z) = X b (pix a y z)) :
    IsVec t B (c * h * w) X := by
  refine ⟨hs, fun b k => ?_⟩
  obtain ⟨a, y, z, rfl⟩ := pix_surj k
  rw [get2 hs, ← e, pix_val]; congr 1; ring

theorem isBatch_img {t : Tensor ℝ} {B : Nat} {X : Fin B → Fin (c * h * w) → ℝ} (hs : t.shape = [B, c, h, w])
    (e : ∀ (b : Fin B) (a : Fin c) (y : Fin h) (z : Fin w), t.data ((((b : Nat) * c + a) * h + y) * w + z) = X b (pix a y z)) :
    IsBatch t B [c, h, w] (c * h * w) X := by
  refine ⟨hs, fun b k => ?_⟩
  obtain ⟨a, y, z, rfl⟩ := pix_surj k
  rw [← e, pix_val]; congr 1; ring

theorem isMat_img {t : Tensor ℝ} {B r : Nat} {M : Fin B → Matrix (Fin r) (Fin (c * h * w)) ℝ} (hs : t.shape = [B, r, c * h * w])
    (e : ∀ (b : Fin B) (i : Fin r) (a : Fin c) (y : Fin h) (z : Fin w),
      t.data (((((b : Nat) * r + i) * c + a) * h + y) * w + z) = M b i (pix a y z)) :
    IsMat t B r (c * h * w) M := by
  refine ⟨hs, fun b i k => ?_⟩
  obtain ⟨a, y, z, rfl⟩ := pix_surj k
  rw [get3 hs, ← e, pix_val]; congr 1; ring

theorem IsBatch.dims4 {t : Tensor ℝ} {B n : Nat} {X : Fin B → Fin n → ℝ} (ht : IsBatch t B [c, h, w] n X) :
    t.dims4 = .ok (B, c, h, w) := by simp [Tensor.dims4, ht.1]

/-- `diagonal12` of a batch of square matrices -/
theorem diagonal12_mat {t : Tensor ℝ} {B n : Nat} {M : Fin B → Matrix (Fin n) (Fin n) ℝ} (ht : IsMat t B n n M) :
    Ret t.diagonal12 fun r => IsVec r B n fun b => diag (M b) := by
  simp only [Tensor.diagonal12, ht.1, Nat.min_self]
  refine Ret.ok ⟨rfl, fun b i => ?_⟩
  rw [get_ofFn _ (by simp)]
  exact ht.2 b i i

end

/-! ### Upsample -/

namespace Upsample

theorem convLen_pool {h s : Nat} (hs : 0 < s) : Torch.convLen (h * s) s s 0 1 = h := by
  unfold Torch.convLen
  have e : (((h * s : Nat) : Int) + 2 * 0 - ((1 : Nat) : Int) * ((s : Int) - 1) - 1) = ((h : Int) - 1) * s := by
    push_cast; ring
  rw [e, Int.mul_ediv_cancel _ (by omega)]
  omega

/-- sums over disjoint squares -/
theorem pool_spec {t : Tensor ℝ} {rows h w s : Nat} (hh : 0 < h) (hw : 0 < w) (hs : 0 < s) (hn : t.numel = rows * (h * s) * (w * s)) :
    Ret (pool ⟨s, 1⟩ t rows (h * s) (w * s)) fun r => r.numel = rows * h * w ∧
      ∀ i y z, i < rows → y < h → z < w → r.data ((i * h + y) * w + z)
        = ∑ u ∈ Finset.range s, ∑ v ∈ Finset.range s, t.data ((i * (h * s) + (y * s + u)) * (w * s) + (z * s + v)) := by
  have hi : Scale.int ⟨s, 1⟩ = s := by simp [Scale.int]
  simp only [pool, hi]
  refine (reshape_data (by simp [hn, size_cons, Nat.mul_assoc])).bind fun r hr => ?_
  have hr4 : N4 r rows 1 (h * s) (w * s) fun i _ y z => t.data ((i * (h * s) + y) * (w * s) + z) :=
    N4.of_data hr.1 fun i j k l _ hj _ _ => by
      obtain rfl : j = 0 := by omega
      rw [hr.2]; congr 1; ring
  have h1 : N4 (ones [1, 1, s, s] : Tensor ℝ) 1 1 s s fun _ _ _ _ => 1 := N4.of_data rfl fun _ _ _ _ _ _ _ _ => rfl
  have key := conv2d_spec (a := { stride := (s, s), padding := (0, 0), dilation := (1, 1), groups := 1 }) (b := none) hr4 h1 (by simp) rfl
    rfl hs hs (le_refl _) (le_refl _) hh hw (convLen_pool hs) (convLen_pool hs)
  refine key.mono fun q hq => ⟨?_, fun i y z hi hy hz => ?_⟩
  · rw [hq.numel, Nat.mul_one]
  have := hq.data hi Nat.zero_lt_one hy hz
  rw [show ((i * 1 + 0) * h + y) * w + z = (i * h + y) * w + z by ring] at this
  rw [this]
  simp only [biasAt, add_zero, Finset.sum_range_one, mul_one]
  refine Finset.sum_congr rfl fun u hu => Finset.sum_congr rfl fun v hv => ?_
  simp only [Finset.mem_range] at hu hv
  have b1 : y * s + u < h * s := lt_pair hy hu
  have b2 : z * s + v < w * s := lt_pair hz hv
  unfold Torch.padGet
  rw [if_pos ⟨by omega, by omega, by omega, by omega⟩]
  simp only [sub_zero, Int.toNat_natCast]

variable {c h w s : Nat}

theorem upSrc_pix (a : Fin c) (y : Fin h) (z : Fin w) (u v : Fin s) :
    upSrc (pix a (finProdFinEquiv (y, u)) (finProdFinEquiv (z, v)) : Fin (c * (h * s) * (w * s))) = pix a y z := by
  have e : ∀ {m} (y : Fin m) (u : Fin s), (finProdFinEquiv (y, u)).divNat = y := fun y u =>
    congrArg Prod.fst (finProdFinEquiv.symm_apply_apply (y, u))
  simp [upSrc, e]

/-- the Jacobian of Upsample -/
def upJ (c h w s : Nat) : Matrix (Fin (c * (h * s) * (w * s))) (Fin (c * h * w)) ℝ := fun k m => if m = upSrc k then 1 else 0

theorem sum_upJ (g : Fin (c * (h * s) * (w * s)) → ℝ) (a : Fin c) (y : Fin h) (z : Fin w) :
    ∑ k, g k * upJ c h w s k (pix a y z)
      = ∑ u : Fin s, ∑ v : Fin s, g (pix a (finProdFinEquiv (y, u)) (finProdFinEquiv (z, v))) := by
  rw [sum_pix]
  have e : ∀ a' : Fin c, (∑ y' : Fin (h * s), ∑ z' : Fin (w * s), g (pix a' y' z') * upJ c h w s (pix a' y' z') (pix a y z))
      = ∑ y' : Fin h, ∑ u : Fin s, ∑ z' : Fin w, ∑ v : Fin s,
        g (pix a' (finProdFinEquiv (y', u)) (finProdFinEquiv (z', v))) * if pix a y z = pix a' y' z' then 1 else 0 := by
    intro a'
    rw [← finProdFinEquiv.sum_comp, Fintype.sum_prod_type]
    refine Finset.sum_congr rfl fun y' _ => Finset.sum_congr rfl fun u _ => ?_
    rw [← finProdFinEquiv.sum_comp, Fintype.sum_prod_type]
    simp only [upJ, upSrc_pix]
  simp only [e, pix_inj]
  rw [Finset.sum_eq_single a, Finset.sum_eq_single y]
  · refine Finset.sum_congr rfl fun u _ => ?_
    rw [Finset.sum_eq_single z]
    · simp
    · intro z' _ hz'; simp [hz'.symm]
    · simp
  · intro y' _ hy'; simp [hy'.symm]
  · simp
  · intro a' _ ha'; simp [ha'.symm]
  · simp

/-- the same sum over natural numbers -/
theorem sum_upJ_nat {F : Nat → Nat → ℝ} {g : Fin (c * (h * s) * (w * s)) → ℝ} (a : Fin c) (y : Fin h) (z : Fin w)
    (e : ∀ (y' : Fin (h * s)) (z' : Fin (w * s)), F y' z' = g (pix a y' z')) :
    ∑ u ∈ Finset.range s, ∑ v ∈ Finset.range s, F (y * s + u) (z * s + v) = ∑ k, g k * upJ c h w s k (pix a y z) := by
  rw [sum_upJ, Finset.sum_range]
  refine Finset.sum_congr rfl fun u _ => ?_
  rw [Finset.sum_range]
  refine Finset.sum_congr rfl fun v _ => ?_
  rw [← e]
  congr 1 <;> simp only [finProdFinEquiv_apply_val] <;> ring

theorem mul_upJ {r : Nat} (Z : Matrix (Fin r) (Fin (c * (h * s) * (w * s))) ℝ) (i : Fin r) (m : Fin (c * h * w)) :
    (Z * upJ c h w s) i m = ∑ k, Z i k * upJ c h w s k m := rfl

theorem forward_spec {B : Nat} {x : Tensor ℝ} {X : Fin B → Fin (c * h * w) → ℝ} (hh : 0 < h) (hw : 0 < w) (hs : 0 < s)
    (hx : IsBatch x B [c, h, w] (c * h * w) X) :
    Ret (forward ⟨s, 1⟩ x) fun v => IsBatch v B [c, h * s, w * s] (c * (h * s) * (w * s)) fun b k => X b (upSrc k) := by
  have h1 : h * s ≠ 0 := by positivity
  have h2 : w * s ≠ 0 := by positivity
  simp only [forward, Torch.upsampleNearest, hx.1, Nat.div_one, Nat.mul_one]
  rw [if_neg (by omega), if_neg (by omega)]
  refine Ret.ok (isBatch_img rfl fun b a y z => ?_)
  have e := ofFn_data_ravel (s := [B, c, h * s, w * s]) (idx := [(b : Nat), (a : Nat), (y : Nat), (z : Nat)])
    (fun idx => x.get [idx.getD 0 0, idx.getD 1 0, min (idx.getD 2 0 / s) (h - 1), min (idx.getD 3 0 / s) (w - 1)]) (by simp)
  have hr : ravel [B, c, h * s, w * s] [(b : Nat), (a : Nat), (y : Nat), (z : Nat)] = (((b : Nat) * c + a) * (h * s) + y) * (w * s) + z := by
    simp [ravel]; ring
  rw [hr] at e
  rw [e]
  obtain ⟨⟨y1, u⟩, rfl⟩ := finProdFinEquiv.surjective y
  obtain ⟨⟨z1, v⟩, rfl⟩ := finProdFinEquiv.surjective z
  rw [upSrc_pix, ← hx.img]
  have ed : ∀ {m : Nat} (y : Fin m) (u : Fin s), (finProdFinEquiv (y, u) : Nat) / s = y := fun y u => by
    rw [finProdFinEquiv_apply_val]; simp only; rw [Nat.add_mul_div_left _ _ hs, Nat.div_eq_of_lt u.2, Nat.zero_add]
  simp only [List.getD_cons_succ, List.getD_cons_zero, ed]
  have m1 : min (y1 : Nat) (h - 1) = y1 := by omega
  have m2 : min (z1 : Nat) (w - 1) = z1 := by omega
  rw [m1, m2, get4 hx.1]
  congr 1; ring

theorem getVal_spec {B : Nat} {x : Tensor ℝ} {X : Fin B → Fin (c * h * w) → ℝ} (hh : 0 < h) (hw : 0 < w) (hs : 0 < s)
    (hx : IsBatch x B [c, h, w] (c * h * w) X) {val : Option (Tensor ℝ)}
    (hv : ∀ v ∈ val, IsBatch v B [c, h * s, w * s] (c * (h * s) * (w * s)) fun b k => X b (upSrc k)) :
    Ret (getVal ⟨s, 1⟩ x val) fun v => IsBatch v B [c, h * s, w * s] (c * (h * s) * (w * s)) fun b k => X b (upSrc k) := by
  cases val with
  | none => exact forward_spec hh hw hs hx
  | some v => exact Ret.ok (hv v rfl)

/-- pooling of a batch of vectors -/
theorem pool_vec {B : Nat} {t : Tensor ℝ} {U : Fin B → Fin (c * (h * s) * (w * s)) → ℝ} (hh : 0 < h) (hw : 0 < w) (hs : 0 < s)
    (ht : IsVec t B (c * (h * s) * (w * s)) U) :
    Ret (pool ⟨s, 1⟩ t (B * c) (h * s) (w * s) >>= fun r => r.reshape [B, c * h * w]) fun r =>
      IsVec r B (c * h * w) fun b => U b ᵥ* upJ c h w s := by
  refine (pool_spec hh hw hs (by rw [Tensor.numel, ht.1]; simp [size_cons]; ring)).bind fun r hr => ?_
  refine (reshape_data (by rw [hr.1]; simp [size_cons]; ring)).mono fun q hq => isVec_img hq.1 fun b a y z => ?_
  rw [hq.2, hr.2 _ _ _ (lt_pair b.2 a.2) y.2 z.2]
  exact sum_upJ_nat (F := fun y z => t.data ((((b : Nat) * c + a) * (h * s) + y) * (w * s) + z)) (g := U b) a y z
    (fun y' z' => by rw [← ht.img])

theorem pool_mat {B r : Nat} {t : Tensor ℝ} {Z : Fin B → Matrix (Fin r) (Fin (c * (h * s) * (w * s))) ℝ} (hh : 0 < h) (hw : 0 < w) (hs : 0 < s)
    (ht : IsMat t B r (c * (h * s) * (w * s)) Z) :
    Ret (pool ⟨s, 1⟩ t (B * r * c) (h * s) (w * s) >>= fun q => q.reshape [B, r, c * h * w]) fun q =>
      IsMat q B r (c * h * w) fun b => Z b * upJ c h w s := by
  refine (pool_spec hh hw hs (by rw [Tensor.numel, ht.1]; simp [size_cons]; ring)).bind fun q hq => ?_
  refine (reshape_data (by rw [hq.1]; simp [size_cons]; ring)).mono fun o ho => isMat_img ho.1 fun b i a y z => ?_
  rw [ho.2, hq.2 _ _ _ (lt_pair (lt_pair b.2 i.2) a.2) y.2 z.2]
  exact sum_upJ_nat (F := fun y z => t.data (((((b : Nat) * r + i) * c + a) * (h * s) + y) * (w * s) + z)) (g := Z b i) a y z
    (fun y' z' => by rw [← ht.img])

end Upsample
end NNJ
