import Verif.Spec.UpsampleModes
import Verif.Proofs.UpFrac

/-! Upsample with other options: bilinear interpolation, `size=`. -/

namespace NNJ
open Tensor Matrix
namespace Upsample

/-! ### interpolation along one axis -/

theorem linear1_eq {num den h : Nat} (hd : 0 < den) (hn : 0 < num) (hh : 0 < h) (g : Nat → ℝ) (i : Nat) :
    linear1 ⟨num, den⟩ h g i = ∑ j : Fin h, tent (bilPos num den h i) j * g j := by
  rw [← Finset.sum_range (fun j => tent (bilPos num den h i) j * g j)]
  simp only [linear1]
  set p := (2 * i + 1) * den - num with hp
  have hn2 : 0 < 2 * num := by omega
  have hnR : (0 : ℝ) < num := by exact_mod_cast hn
  have hdR : (0 : ℝ) < den := by exact_mod_cast hd
  have hpR : (p : ℝ) / (2 * num : Nat) = max 0 (((i : ℝ) + 1 / 2) / (num / den) - 1 / 2) := by
    have e : ((i : ℝ) + 1 / 2) / (num / den) - 1 / 2 = ((2 * i + 1) * den - num) / (2 * num) := by
      field_simp
    rw [e]
    push_cast
    rcases Nat.le_total num ((2 * i + 1) * den) with h1 | h1
    · rw [hp, Nat.cast_sub h1]
      have h1' : (num : ℝ) ≤ (2 * i + 1) * den := by exact_mod_cast h1
      rw [max_eq_right (div_nonneg (by linarith) (by linarith))]
      push_cast; rfl
    · rw [hp, Nat.sub_eq_zero_of_le h1]
      have h1' : ((2 * i + 1) * den : ℝ) ≤ num := by exact_mod_cast h1
      rw [max_eq_left (div_nonpos_of_nonpos_of_nonneg (by linarith) (by linarith))]
      simp
  set q := p / (2 * num) with hq
  set l : ℝ := ((p % (2 * num) : Nat) : ℝ) / ((2 * num : Nat) : ℝ) with hl
  have hn2R : (0 : ℝ) < ((2 * num : Nat) : ℝ) := by exact_mod_cast hn2
  have hl0 : 0 ≤ l := div_nonneg (Nat.cast_nonneg _) hn2R.le
  have hl1 : l < 1 := by
    rw [hl, div_lt_one hn2R]
    exact_mod_cast Nat.mod_lt _ hn2
  have hpos : max 0 (((i : ℝ) + 1 / 2) / (num / den) - 1 / 2) = q + l := by
    have e : (p : ℝ) = (2 * num : Nat) * q + (p % (2 * num) : Nat) := by
      rw [hq]; exact_mod_cast (Nat.div_add_mod p (2 * num)).symm
    rw [← hpR, hl, e, add_div, mul_div_cancel_left₀ _ hn2R.ne']
  rw [bilPos, hpos]
  rcases Nat.lt_or_ge (q + 1) h with h1 | h1
  · have e0 : min q (h - 1) = q := by omega
    have e1 : min (q + 1) (h - 1) = q + 1 := by omega
    have h1R : (q : ℝ) + 1 ≤ h - 1 := by
      have : q + 1 + 1 ≤ h := h1
      have : ((q + 1 + 1 : Nat) : ℝ) ≤ h := by exact_mod_cast this
      push_cast at this; linarith
    rw [e0, e1, min_eq_left (by linarith)]
    rw [← Finset.sum_subset (s₁ := {q, q + 1})]
    · rw [Finset.sum_pair (by omega)]
      congr 2
      · rw [tent, add_sub_cancel_left, abs_of_nonneg hl0, max_eq_right (by linarith)]
      · rw [tent]; push_cast
        rw [show (q : ℝ) + l - (q + 1) = -(1 - l) by ring, abs_neg, abs_of_nonneg (by linarith), max_eq_right (by linarith)]; ring
    · intro j hj
      simp only [Finset.mem_insert, Finset.mem_singleton, Finset.mem_range] at hj ⊢
      omega
    · intro j _ hj
      simp only [Finset.mem_insert, Finset.mem_singleton, not_or] at hj
      have : 1 ≤ |(q : ℝ) + l - j| := by
        rcases Nat.lt_or_ge j q with h2 | h2
        · have : ((j + 1 : Nat) : ℝ) ≤ q := by exact_mod_cast h2
          push_cast at this
          exact le_trans (by linarith) (le_abs_self _)
        · have h3 : q + 2 ≤ j := by omega
          have : ((q + 2 : Nat) : ℝ) ≤ j := by exact_mod_cast h3
          push_cast at this
          exact le_trans (by linarith) (neg_le_abs _)
      rw [tent, max_eq_left (by linarith), zero_mul]
  · have e0 : min q (h - 1) = h - 1 := by omega
    have e1 : min (h - 1 + 1) (h - 1) = h - 1 := by omega
    have h1R : (h : ℝ) - 1 ≤ q := by
      have : (h : ℝ) ≤ ((q + 1 : Nat) : ℝ) := by exact_mod_cast h1
      push_cast at this; linarith
    have hc : ((h - 1 : Nat) : ℝ) = h - 1 := by rw [Nat.cast_sub hh]; simp
    rw [e0, e1, min_eq_right (by linarith), ← hc, Finset.sum_eq_single (h - 1)]
    · simp only [tent, sub_self, abs_zero, sub_zero]; rw [max_eq_right (by norm_num)]; ring
    · intro j hj hj'
      have : 1 ≤ |((h - 1 : Nat) : ℝ) - j| := by
        simp only [Finset.mem_range] at hj
        have : j + 1 ≤ h - 1 := by omega
        have : ((j + 1 : Nat) : ℝ) ≤ ((h - 1 : Nat) : ℝ) := by exact_mod_cast this
        push_cast at this
        exact le_trans (by push_cast; linarith) (le_abs_self _)
      rw [tent, max_eq_left (by linarith), zero_mul]
    · intro h2; simp at h2; omega

/-! ### the forward passes -/

variable {num den c h w B : Nat} {x : Tensor ℝ} {X : Fin B → Fin (c * h * w) → ℝ}

theorem lt_upLen (hd : 0 < den) (hn : den ≤ num) {g : Nat} (hg : 0 < g) : 0 < upLen num den g :=
  lt_of_lt_of_le (Nat.mul_pos hg (int_pos hd hn)) (le_upLen hd)

theorem bilinear_spec (hd : 0 < den) (hn : den ≤ num) (hh : 0 < h) (hw : 0 < w) (hx : IsBatch x B [c, h, w] (c * h * w) X) :
    Ret (Options.forward { scale := .scalar ⟨num, den⟩, mode := .bilinear } x) fun v =>
      IsBatch v B [c, upLen num den h, upLen num den w] (c * upLen num den h * upLen num den w) fun b => bilJ num den c h w *ᵥ X b := by
  have h1 := lt_upLen hd hn hh
  have h2 := lt_upLen hd hn hw
  simp only [Options.forward, hx.1, Options.target, Res.bind_ok]
  rw [if_neg (by omega), if_neg (by simp only [upLen] at h1 h2; omega)]
  refine Ret.ok (isBatch_img rfl fun b a y z => ?_)
  have e := ofFn_data_ravel (s := [B, c, upLen num den h, upLen num den w]) (idx := [(b : Nat), (a : Nat), (y : Nat), (z : Nat)])
    (fun idx => axis .bilinear ⟨num, den⟩ h (fun r => axis .bilinear ⟨num, den⟩ w (fun s => x.get [idx.getD 0 0, idx.getD 1 0, r, s]) (idx.getD 3 0)) (idx.getD 2 0)) (by simp)
  have hr : ravel [B, c, upLen num den h, upLen num den w] [(b : Nat), (a : Nat), (y : Nat), (z : Nat)]
      = (((b : Nat) * c + a) * upLen num den h + y) * upLen num den w + z := by
    simp [ravel]; ring
  rw [hr] at e
  refine e.trans ?_
  simp only [List.getD_cons_succ, List.getD_cons_zero, axis]
  rw [linear1_eq hd (by omega) hh]
  simp only [mulVec, dotProduct]
  rw [sum_pix, Finset.sum_eq_single a]
  · refine Finset.sum_congr rfl fun r _ => ?_
    rw [linear1_eq hd (by omega) hw, Finset.mul_sum]
    refine Finset.sum_congr rfl fun s _ => ?_
    simp only [bilJ, chan_pix, row_pix, col_pix, if_true]
    rw [get4 hx.1, ← hx.img, mul_assoc]
    congr 3; ring
  · intro a' _ ha'
    refine Finset.sum_eq_zero fun r _ => Finset.sum_eq_zero fun s _ => ?_
    simp [bilJ, ha'.symm]
  · simp

/-- nearest-neighbour enlargement to sides of `H` and `W` pixels -/
theorem size_spec {H W : Nat} (hH : 0 < H) (hW : 0 < W) (hh : 0 < h) (hw : 0 < w) (hx : IsBatch x B [c, h, w] (c * h * w) X) :
    Ret (Options.forward { size := some (H, W) } x) fun v => IsBatch v B [c, H, W] (c * H * W) fun b k =>
      X b (pix (chan k) ⟨row k * h / H, Nat.div_lt_of_lt_mul (Nat.mul_lt_mul_of_pos_right (row k).2 hh)⟩
        ⟨col k * w / W, Nat.div_lt_of_lt_mul (Nat.mul_lt_mul_of_pos_right (col k).2 hw)⟩) := by
  simp only [Options.forward, hx.1, Options.target, Res.bind_ok]
  rw [if_neg (by omega), if_neg (by omega)]
  refine Ret.ok (isBatch_img rfl fun b a y z => ?_)
  have e := ofFn_data_ravel (s := [B, c, H, W]) (idx := [(b : Nat), (a : Nat), (y : Nat), (z : Nat)])
    (fun idx => axis .nearest ⟨H, h⟩ h (fun r => axis .nearest ⟨W, w⟩ w (fun s => x.get [idx.getD 0 0, idx.getD 1 0, r, s]) (idx.getD 3 0)) (idx.getD 2 0)) (by simp)
  have hr : ravel [B, c, H, W] [(b : Nat), (a : Nat), (y : Nat), (z : Nat)] = (((b : Nat) * c + a) * H + y) * W + z := by
    simp [ravel]; ring
  rw [hr] at e
  refine e.trans ?_
  simp only [List.getD_cons_succ, List.getD_cons_zero, axis, nearest1, chan_pix, row_pix, col_pix, ← hx.img]
  have m1 : (y : Nat) * h / H < h := Nat.div_lt_of_lt_mul (Nat.mul_lt_mul_of_pos_right y.2 hh)
  have m2 : (z : Nat) * w / W < w := Nat.div_lt_of_lt_mul (Nat.mul_lt_mul_of_pos_right z.2 hw)
  rw [Nat.min_eq_left (by omega), Nat.min_eq_left (by omega), get4 hx.1]
  congr 1; ring

/-- `{scale := scalar f}` is the forward pass of Model/Upsample -/
theorem forward_default (f : Scale) : (Options.forward { scale := .scalar f } : Tensor ℝ → Res (Tensor ℝ)) = forward f := by
  funext x
  simp only [Options.forward, forward, Torch.upsampleNearest]
  by_cases hx : ∃ n c h w, x.shape = [n, c, h, w]
  · obtain ⟨n, c, h, w, hx⟩ := hx
    simp only [hx, Options.target, Res.bind_ok]
    have : (f.num = 0 ∨ f.den = 0 ∨ f.num = 0 ∨ f.den = 0) ↔ (f.num = 0 ∨ f.den = 0) := by tauto
    simp only [this]
    rfl
  · split
    · rename_i n c h w e; exact absurd ⟨n, c, h, w, e⟩ hx
    · split
      · rename_i n c h w e; exact absurd ⟨n, c, h, w, e⟩ hx
      · rfl

/-! ### the products -/

theorem anyLayer_default (f : Scale) : (anyLayer (forward f) (.ok f) : PureLayer ℝ) = layer f := rfl

variable {fwd fwd' : Tensor ℝ → Res (Tensor ℝ)} {sc : Res Scale} {y y' : Tensor ℝ}

theorem dims4_congr (h : y.shape = y'.shape) : y.dims4 = y'.dims4 := by rw [Tensor.dims4, Tensor.dims4, h]

theorem anyVjp_congr (e : fwd x = .ok y) (e' : fwd' x = .ok y') (h : y.shape = y'.shape) (v : Tensor ℝ) (wrt : Wrt) :
    anyVjp fwd sc x none v wrt = anyVjp fwd' sc x none v wrt := by
  cases wrt <;> simp only [anyVjp, anyVal, e, e', Res.bind_ok, dims4_congr h]

theorem anyMjpSome_val (h : y.shape = y'.shape) (m : Tensor ℝ) (wrt : Wrt) :
    anyMjpSome fwd sc x (some y) m wrt = anyMjpSome fwd' sc x (some y') m wrt := by
  cases wrt <;> simp only [anyMjpSome, anyVal, Res.bind_ok, dims4_congr h]

theorem anyMjpSome_congr (e : fwd x = .ok y) (e' : fwd' x = .ok y') (h : y.shape = y'.shape) (m : Tensor ℝ) (wrt : Wrt) :
    anyMjpSome fwd sc x none m wrt = anyMjpSome fwd' sc x none m wrt := by
  cases wrt <;> simp only [anyMjpSome, anyVal, e, e', Res.bind_ok, dims4_congr h]

theorem anyJacobian_congr (e : fwd x = .ok y) (e' : fwd' x = .ok y') (h : y.shape = y'.shape) (wrt : Wrt) :
    anyJacobian fwd sc x none wrt = anyJacobian fwd' sc x none wrt := by
  cases wrt <;> simp only [anyJacobian, anyVal, e, e', Res.bind_ok, dims4_congr h, anyMjpSome_val (fwd := fwd) (fwd' := fwd') h]

theorem anyJTmjp_congr (e : fwd x = .ok y) (e' : fwd' x = .ok y') (h : y.shape = y'.shape) (m : Option (Tensor ℝ)) (wrt : Wrt)
    (fd td db : Bool) : anyJTmjp fwd sc x none m wrt fd td db = anyJTmjp fwd' sc x none m wrt fd td db := by
  have e1 : onesLike y = onesLike y' := by rw [onesLike, onesLike, h]
  simp only [anyJTmjp, anyVal, e, e', Res.bind_ok, dims4_congr h, e1]

theorem tent_zero : tent 0 0 = 1 := by simp [tent]

theorem bilPos_first (hd : 0 < den) (hn : den < num) {g : Nat} (hg : 0 < g) : bilPos num den g 0 = 0 := by
  have hgR : (1 : ℝ) ≤ g := by exact_mod_cast hg
  have hnR : (den : ℝ) < num := by exact_mod_cast hn
  have hdR : (0 : ℝ) < den := by exact_mod_cast hd
  have : ((0 : Nat) + 1 / 2 : ℝ) / (num / den) - 1 / 2 ≤ 0 := by
    rw [sub_nonpos, div_le_iff₀ (div_pos (hdR.trans hnR) hdR)]
    have : (1 : ℝ) ≤ num / den := (one_le_div hdR).2 hnR.le
    push_cast; linarith
  rw [bilPos, max_eq_left this, min_eq_left (by linarith)]

/-- a position strictly between the first two pixels -/
theorem bilPos_between (hd : 0 < den) (hn : den < num) {g : Nat} (hg : 1 < g) :
    ∃ i < upLen num den g, 0 < bilPos num den g i ∧ bilPos num den g i < 1 := by
  have hnR : (den : ℝ) < num := by exact_mod_cast hn
  have hdR : (0 : ℝ) < den := by exact_mod_cast hd
  have hgR : (2 : ℝ) ≤ g := by exact_mod_cast hg
  have h1 : 2 * den * ((num + den) / (2 * den)) ≤ num + den := Nat.mul_div_le _ _
  have h2 : num + den < 2 * den * ((num + den) / (2 * den) + 1) := Nat.lt_mul_div_succ _ (by omega)
  generalize (num + den) / (2 * den) = i at h1 h2
  refine ⟨i, ?_, ?_⟩
  · rw [upLen, Nat.lt_iff_add_one_le, Nat.le_div_iff_mul_le hd]
    have : 2 * num ≤ g * num := Nat.mul_le_mul_right _ hg
    nlinarith
  · have h1R : (2 * den * i : ℝ) ≤ num + den := by exact_mod_cast h1
    have h2R : (num + den : ℝ) < 2 * den * (i + 1) := by exact_mod_cast h2
    have e : ((i : ℝ) + 1 / 2) / (num / den) - 1 / 2 = ((2 * i + 1) * den - num) / (2 * num) := by
      have := hdR.trans hnR
      field_simp
    have p0 : 0 < ((2 * (i : ℝ) + 1) * den - num) / (2 * num) := div_pos (by linarith) (by linarith)
    have p1 : ((2 * (i : ℝ) + 1) * den - num) / (2 * num) < 1 := by rw [div_lt_one (by linarith)]; linarith
    rw [bilPos, e, max_eq_right p0.le, min_eq_left (by linarith)]
    exact ⟨p0, p1⟩

theorem bilJ_ne (hd : 0 < den) (hn : den < num) (hc : 0 < c) (hh : 0 < h) (hw : 0 < w) (h1 : ¬ (h = 1 ∧ w = 1)) : bilJ num den c h w ≠ qP := by
  intro e
  have l1 := lt_upLen hd hn.le hh
  have l2 := lt_upLen hd hn.le hw
  have key : ∀ {p : ℝ}, 0 < p → p < 1 → tent p 0 ≠ 0 ∧ tent p 0 ≠ 1 := fun {p} hp0 hp1 => by
    have : tent p 0 = 1 - p := by rw [tent]; simp only [Nat.cast_zero, sub_zero]; rw [abs_of_pos hp0, max_eq_right (by linarith)]
    rw [this]
    constructor <;> intro h <;> linarith
  have hq : ∀ k m, (qP : Matrix (Fin (c * upLen num den h * upLen num den w)) (Fin (c * h * w)) ℝ) k m = 1 ∨
      (qP : Matrix (Fin (c * upLen num den h * upLen num den w)) (Fin (c * h * w)) ℝ) k m = 0 := fun k m => by
    rw [qP]; exact ite_eq_or_eq _ _ _
  by_cases hh1 : 1 < h
  · obtain ⟨i, hi, hp0, hp1⟩ := bilPos_between hd hn hh1
    have e1 := congrFun (congrFun e (pix ⟨0, hc⟩ ⟨i, hi⟩ ⟨0, l2⟩)) (pix ⟨0, hc⟩ ⟨0, hh⟩ ⟨0, hw⟩)
    have e2 := hq (pix ⟨0, hc⟩ ⟨i, hi⟩ ⟨0, l2⟩) (pix ⟨0, hc⟩ ⟨0, hh⟩ ⟨0, hw⟩)
    rw [← e1] at e2
    simp only [bilJ, chan_pix, row_pix, col_pix, if_true, bilPos_first hd hn hw, tent_zero, mul_one] at e2
    exact e2.elim (key hp0 hp1).2 (key hp0 hp1).1
  · obtain ⟨i, hi, hp0, hp1⟩ := bilPos_between hd hn (g := w) (by omega)
    have e1 := congrFun (congrFun e (pix ⟨0, hc⟩ ⟨0, l1⟩ ⟨i, hi⟩)) (pix ⟨0, hc⟩ ⟨0, hh⟩ ⟨0, hw⟩)
    have e2 := hq (pix ⟨0, hc⟩ ⟨0, l1⟩ ⟨i, hi⟩) (pix ⟨0, hc⟩ ⟨0, hh⟩ ⟨0, hw⟩)
    rw [← e1] at e2
    simp only [bilJ, chan_pix, row_pix, col_pix, if_true, bilPos_first hd hn hh, tent_zero, one_mul] at e2
    exact e2.elim (key hp0 hp1).2 (key hp0 hp1).1

theorem tent_nat (i j : Nat) : tent i j = if i = j then 1 else 0 := by
  split
  · rename_i h; subst h; simp [tent]
  · rename_i h
    have : 1 ≤ |(i : ℝ) - j| := by
      rcases Nat.lt_or_gt_of_ne h with h2 | h2
      · have : ((i + 1 : Nat) : ℝ) ≤ j := by exact_mod_cast h2
        push_cast at this
        exact le_trans (by linarith) (neg_le_abs _)
      · have : ((j + 1 : Nat) : ℝ) ≤ i := by exact_mod_cast h2
        push_cast at this
        exact le_trans (by linarith) (le_abs_self _)
    rw [tent, max_eq_left (by linarith)]

theorem bilJ_eq (hd : 0 < den) (h1 : num = den ∨ (h = 1 ∧ w = 1)) : bilJ num den c h w = qP := by
  have key : ∀ {g : Nat} (_ : num = den ∨ g = 1) (i : Fin (upLen num den g)) (j : Fin g),
      tent (bilPos num den g i) j = if (i : Nat) / (num / den) = j then 1 else 0 := fun {g} hg i j => by
    rcases hg with rfl | rfl
    · have hi : (i : Nat) < g := by have : (i : Nat) < g * num / num := i.2; rwa [Nat.mul_div_cancel _ hd] at this
      have hiR : ((i : Nat) : ℝ) ≤ g - 1 := by
        have : (((i : Nat) + 1 : Nat) : ℝ) ≤ g := by exact_mod_cast hi
        push_cast at this; linarith
      have hdR : (num : ℝ) ≠ 0 := by exact_mod_cast hd.ne'
      rw [bilPos, div_self hdR, div_one, add_sub_cancel_right, max_eq_right (Nat.cast_nonneg _), min_eq_left hiR, tent_nat,
        Nat.div_self hd, Nat.div_one]
    · have hi : (i : Nat) < num / den := by have : (i : Nat) < 1 * num / den := i.2; rwa [Nat.one_mul] at this
      have e : bilPos num den 1 i = 0 := by rw [bilPos]; simp
      obtain rfl : j = 0 := Subsingleton.elim _ _
      rw [e, Nat.div_eq_of_lt hi]
      simpa using tent_zero
  funext k m
  simp only [bilJ, qP, key (h1.imp_right And.left), key (h1.imp_right And.right)]
  by_cases e1 : chan k = chan m <;> by_cases e2 : (row k : Nat) / (num / den) = row m <;>
    by_cases e3 : (col k : Nat) / (num / den) = col m <;> simp [e1, e2, e3]

theorem bil_forwardMap (hd : 0 < den) (hn : den ≤ num) (hh : 0 < h) (hw : 0 < w) (id : Nat) (st : Store ℝ) :
    forwardMap (Options.mod { scale := .scalar ⟨num, den⟩, mode := .bilinear } id) st [c, h, w] = linMap (bilJ num den c h w) := by
  funext z
  obtain ⟨t, ht, hT⟩ := bilinear_spec (num := num) hd hn hh hw (ofSample_isBatch (s := [c, h, w]) z)
  have : ((Options.mod { scale := .scalar ⟨num, den⟩, mode := .bilinear } id).forward (ofSample [c, h, w] z) st).1 = .ok t := ht
  funext i
  simp only [forwardMap, this, linMap_apply]
  simpa using hT.2 0 i

end Upsample
end NNJ
