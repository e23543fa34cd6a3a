import Verif.Proofs.Rounding
import Verif.Props.Shapes
import Mathlib.Analysis.SpecialFunctions.Exp
import Mathlib.Data.Int.Log

/-!
# C78: rounding errors of the forward pass
-/

namespace NNJ

mutual
theorem Net.ReluNet.noPool {m : Nat} : {s s' : List Nat} → {n k p : Nat} → {N : Net s n s' k p} → N.ReluNet m → N.NoPool
  | _, _, _, _, _, .linear _ _ _ _ _ _ _, _ => trivial
  | _, _, _, _, _, .act _ _ _ _ _ _, _ => trivial
  | _, _, _, _, _, .flatten _ _ _ _ _, _ => trivial
  | _, _, _, _, _, .reshape _ _ _ _ _ _ _ _ _, _ => trivial
  | _, _, _, _, _, .l2norm _ _ _ _ _ _ _, h => h.elim
  | _, _, _, _, _, .conv _ _ _ _, h => h.elim
  | _, _, _, _, _, .upsample _ _ _ _ _ _ _ _ _, h => h.elim
  | _, _, _, _, _, .maxpool _ _, h => h.elim
  | _, _, _, _, _, .seq _ c, h => Chain.ReluNet.noPool (c := c) h
  | _, _, _, _, _, .skip _ _ c, h => Chain.ReluNet.noPool (c := c) h
theorem Chain.ReluNet.noPool {m : Nat} : {s s' : List Nat} → {n k p l : Nat} → {c : Chain s n s' k p l} → c.ReluNet m → c.NoPool
  | _, _, _, _, _, _, .nil _ _ _ _, _ => trivial
  | _, _, _, _, _, _, .snoc _ _, h => ⟨Chain.ReluNet.noPool h.1, Net.ReluNet.noPool h.2⟩
end

theorem image_same {β : Type} (v : β → ℝ) (sf : Store β) : SameStore (sf.image v) sf where
  param _ := rfl
  fmaps i := by simp only [Store.image, Option.map_map]; congr 1; funext l; simp [Tensor.map, Function.comp_def]
  hooks := rfl

namespace Props
open Tensor

section
variable {β : Type} [Zero β] [One β] [Add β] [Sub β] [Mul β] [Neg β] [Div β] [NatCast β] [LT β] [DecidableLT β] [Trans β] (R : Rounding β)
variable {s s' : List Nat} {n k p m : Nat} {N : Net s n s' k p} {B : Nat} {sf : Store β} {x : Tensor β}

theorem round_forward (hN : N.ReluNet m) (h : N.Ok (sf.image R.val)) (hB : 0 < B) (hx : x.shape = B :: s) (q : ℝ → β) (fn : (ℝ → ℝ) → β → β) :
    ∃ y, ((N.modIn q fn).forward x sf).1 = .ok y ∧ StableAt R m N.sem (N.w (sf.image R.val)) s' (fun (b : Fin B) i => R.val (x.data (b * n + i))) y := by
  obtain ⟨_, r', _, hr, _⟩ := C75_returns_in_any_number_system (x := x.map R.val) hN.noPool h hB .forward trivial hx q fn (image_same R.val sf)
    (c' := .forward x) (.forward rfl)
  obtain ⟨y, s1, h1, _⟩ := NaN.bind_inv (p := (N.modIn q fn).forward x) (f := fun r => pure (PyVal.tensor r)) (s := sf) (b := r')
    (s' := ((Use.forward x).run (N.modIn q fn) sf).2) (Prod.ext hr rfl)
  exact ⟨y, by rw [h1], (Net.stable R q fn m sf N hN h.wired.shapes hB rfl (X := fun b i => R.val (x.data (b * n + i))) ⟨hx, fun _ _ => rfl⟩ h1).2⟩

/-- C78: forward of a network of Linear layers (with at most `m` inputs each), ReLU, Flatten, Reshape, Sequential and SkipConnection, in arithmetic with
relative rounding errors of at most `u`, returns for each sample exactly what the network returns in exact arithmetic with weights that differ from the
actual ones by a relative error of at most `(1 + u) ^ (m + 2) - 1` each.  The bound does not depend on the depth. -/
theorem C78_forward_backward_stable (hN : N.ReluNet m) (h : N.Ok (sf.image R.val)) (hs : N.paramIds.Nodup) (hp : 0 < p) (hB : 0 < B)
    (hx : x.shape = B :: s) (q : ℝ → β) (fn : (ℝ → ℝ) → β → β) :
    ∃ y, ((N.modIn q fn).forward x sf).1 = .ok y ∧ y.shape = B :: s' ∧ ∃ wt, Returns N.mod.getWeight (sf.image R.val) wt ∧ wt.shape = [p] ∧
      ∀ b : Fin B, ∃ w' : Fin p → ℝ, (∀ i, |w' i - wt.data i| ≤ ((1 + R.u) ^ (m + 2) - 1) * |wt.data i|) ∧
        ∀ i : Fin k, R.val (y.data (b * k + i)) = weightMap N.mod (sf.image R.val) (x.map R.val) b w' i := by
  obtain ⟨y, hy, w', hw, hv⟩ := round_forward R hN h hB hx q fn
  obtain ⟨wt, hwt, hwt2⟩ := h.getWeight hs hp
  refine ⟨y, hy, hv.1, wt, congrArg Prod.fst hwt, hwt2.1, fun b => ⟨w' b, fun i => ?_, fun i => ?_⟩⟩
  · rw [hwt2.2 i]
    exact hw b i
  · rw [h.weightMap_eq hs hB (X := fun b i => R.val (x.data (b * n + i))) ⟨hx, fun _ _ => rfl⟩ b]
    exact hv.2 b i

set_option linter.unusedSectionVars false in
/-- C78: the size of the bound. -/
theorem C78_bound (hu : ((m : ℝ) + 2) * R.u ≤ 1 / 2) : (1 + R.u) ^ (m + 2) - 1 ≤ 2 * (m + 2) * R.u := by
  have h1 : (1 + R.u) ^ (m + 2) ≤ Real.exp (((m : ℝ) + 2) * R.u) := by
    calc (1 + R.u) ^ (m + 2) ≤ Real.exp R.u ^ (m + 2) :=
          pow_le_pow_left₀ (by linarith [R.u_nonneg]) (by linarith [Real.add_one_le_exp R.u]) _
      _ = Real.exp (((m : ℝ) + 2) * R.u) := by rw [← Real.exp_nat_mul]; push_cast; ring_nf
  set c := ((m : ℝ) + 2) * R.u with hc
  have hc0 : 0 ≤ c := mul_nonneg (by positivity) R.u_nonneg
  have h2 : Real.exp c * (1 - c) ≤ 1 := by
    have := mul_le_mul_of_nonneg_left (Real.one_sub_le_exp_neg c) (Real.exp_pos c).le
    rwa [← Real.exp_add, add_neg_cancel, Real.exp_zero] at this
  have h3 : Real.exp c ≤ 1 + 2 * c := by
    by_contra hlt
    push Not at hlt
    nlinarith [mul_lt_mul_of_pos_right hlt (show (0 : ℝ) < 1 - c by linarith)]
  linarith

/-- C78: a network without parameters (ReLU, Flatten, Reshape, skip connections) is computed without any error. -/
theorem C78_no_parameters_exact {N : Net s n s' k 0} (hN : N.ReluNet m) (h : N.Ok (sf.image R.val)) (hB : 0 < B) (hx : x.shape = B :: s)
    (q : ℝ → β) (fn : (ℝ → ℝ) → β → β) :
    ∃ y r, ((N.modIn q fn).forward x sf).1 = .ok y ∧ Returns (N.mod.forward (x.map R.val)) (sf.image R.val) r ∧ y.shape = r.shape ∧
      ∀ i < B * k, R.val (y.data i) = r.data i := by
  obtain ⟨y, hy, w', hw, hv⟩ := round_forward R hN h hB hx q fn
  obtain ⟨r, hr, hr2⟩ := h.forward hB (x := x.map R.val) (X := fun b i => R.val (x.data (b * n + i))) ⟨hx, fun _ _ => rfl⟩
  refine ⟨y, r, hy, hr, hv.1.trans hr2.1.symm, fun i hi => ?_⟩
  have hk : 0 < k := N.sizes.2.2.2
  have e1 := hv.2 ⟨i / k, Nat.div_lt_of_lt_mul (by rwa [Nat.mul_comm])⟩ ⟨i % k, Nat.mod_lt _ hk⟩
  have e2 := hr2.2 ⟨i / k, Nat.div_lt_of_lt_mul (by rwa [Nat.mul_comm])⟩ ⟨i % k, Nat.mod_lt _ hk⟩
  simp only [Nat.div_add_mod'] at e1 e2
  rw [e2]
  refine Eq.trans e1 ?_
  congr 1
  funext j
  exact j.elim0

/-- C78: the error of one Linear layer. -/
theorem C78_linear_error {id wId i o : Nat} {bId : Option Nat} (hi : 0 < i) (ho : 0 < o) (hW : (sf.param wId).shape = [o, i])
    (hb : ∀ t ∈ bId, (sf.param t).shape = [o]) (hB : 0 < B) (hx : x.shape = [B, i]) :
    ∃ y r, ((Linear.mod id wId bId i o : Mod β).forward x sf).1 = .ok y ∧
      Returns ((Linear.mod id wId bId i o : Mod ℝ).forward (x.map R.val)) (sf.image R.val) r ∧ y.shape = [B, o] ∧ r.shape = [B, o] ∧
      ∀ (b : Fin B) (c : Fin o), |R.val (y.data (b * o + c)) - r.data (b * o + c)| ≤ ((1 + R.u) ^ (i + 2) - 1) *
        (∑ j : Fin i, |R.val ((sf.param wId).data (c * i + j))| * |R.val (x.data (b * i + j))| +
          (match bId with | some t => |R.val ((sf.param t).data c)| | none => 0)) := by
  have hN : (Net.linear id wId bId i o hi ho).Ok (sf.image R.val) := ⟨List.nodup_singleton _, hW, hb⟩
  have hxb : IsBatch (x.map R.val) B [i] i fun b j => R.val (x.data (b * i + j)) := ⟨hx, fun _ _ => rfl⟩
  obtain ⟨y, hy, -⟩ := round_forward (m := i) R (N := .linear id wId bId i o hi ho) le_rfl hN hB hx (fun _ => 0) (fun _ a => a)
  obtain ⟨r, hr, hr2⟩ := hN.forward hB hxb
  have hy' : Torch.linear x (sf.param wId) (bId.map sf.param) = .ok y := hy
  obtain ⟨hys, θ, η, hθ, hη, hv⟩ := R.linear hxb hW (by
    intro b hb'
    obtain ⟨c, hc, rfl⟩ := Option.map_eq_some_iff.1 hb'
    exact hb c hc) hy'
  refine ⟨y, r, hy, hr, hys, hr2.1, fun b c => ?_⟩
  have e : r.data (b * o + c) = ∑ j : Fin i, R.val ((sf.param wId).data (c * i + j)) * R.val (x.data (b * i + j)) +
      (match bId with | some t => R.val ((sf.param t).data c) | none => 0) := by
    rw [hr2.2 b c]
    show linearF bId i o (linearW wId bId i o (sf.image R.val)) _ c = _
    unfold linearF
    congr 1
    · refine Finset.sum_congr rfl fun j _ => ?_
      simp only [linearW, Fin.append_left]
      rw [finProdFinEquiv_apply_val, Nat.add_comm, Nat.mul_comm]
      rfl
    · cases bId with
      | none => rw [dif_neg (by simp [biasLen])]
      | some t =>
        rw [dif_pos (show c.val < biasLen (some t) o from c.2)]
        simp only [linearW, Fin.append_right]
        rfl
  rw [hv b c, e, add_sub_add_comm, ← Finset.sum_sub_distrib, mul_add, Finset.mul_sum]
  refine (abs_add_le _ _).trans (add_le_add ((Finset.abs_sum_le_sum_abs _ _).trans (Finset.sum_le_sum fun j _ => ?_)) ?_)
  · rw [← sub_mul, abs_mul, ← mul_assoc]
    exact mul_le_mul_of_nonneg_right (hθ b c j).dist (abs_nonneg _)
  · cases bId with
    | none => simp
    | some t => exact (hη b c).dist
end

/-- real numbers with sums and products rounded to `t + 1` significant binary digits, to nearest (`t = 23`: `torch.float32`, `t = 52`:
`torch.float64`), with unbounded exponents -/
@[ext] structure Fl (t : Nat) where
  v : ℝ

namespace Fl
variable {t : Nat}

/-- rounding to `t + 1` significant binary digits -/
noncomputable def fl (t : Nat) (a : ℝ) : ℝ := round (a / (2 : ℝ) ^ (Int.log 2 |a| - t)) * (2 : ℝ) ^ (Int.log 2 |a| - t)

noncomputable instance : Zero (Fl t) := ⟨⟨0⟩⟩
noncomputable instance : One (Fl t) := ⟨⟨1⟩⟩
noncomputable instance : Add (Fl t) := ⟨fun a b => ⟨fl t (a.v + b.v)⟩⟩
noncomputable instance : Sub (Fl t) := ⟨fun a b => ⟨fl t (a.v - b.v)⟩⟩
noncomputable instance : Mul (Fl t) := ⟨fun a b => ⟨fl t (a.v * b.v)⟩⟩
noncomputable instance : Neg (Fl t) := ⟨fun a => ⟨-a.v⟩⟩
noncomputable instance : Div (Fl t) := ⟨fun a b => ⟨fl t (a.v / b.v)⟩⟩
noncomputable instance : NatCast (Fl t) := ⟨fun a => ⟨fl t a⟩⟩
instance : LT (Fl t) := ⟨fun a b => a.v < b.v⟩
noncomputable instance : DecidableLT (Fl t) := fun _ _ => Classical.dec _
noncomputable instance : Trans (Fl t) := ⟨id, id, id, id, id, id⟩

theorem fl_err (t : Nat) (a : ℝ) : |fl t a - a| ≤ (1 / 2) ^ (t + 1) * |a| := by
  rcases eq_or_ne a 0 with rfl | h
  · simp [fl]
  have hp : (0 : ℝ) < (2 : ℝ) ^ (Int.log 2 |a| - t) := by positivity
  have e : fl t a - a = -((a / (2 : ℝ) ^ (Int.log 2 |a| - t) - round (a / (2 : ℝ) ^ (Int.log 2 |a| - t))) * (2 : ℝ) ^ (Int.log 2 |a| - t)) := by
    unfold fl
    field_simp
    ring
  have hl : (2 : ℝ) ^ Int.log 2 |a| ≤ |a| := by exact_mod_cast Int.zpow_log_le_self (R := ℝ) one_lt_two (abs_pos.2 h)
  have hs : (2 : ℝ) ^ (Int.log 2 |a| - t) = (2 : ℝ) ^ Int.log 2 |a| * (1 / 2) ^ t := by
    rw [zpow_sub₀ two_ne_zero, zpow_natCast, one_div, inv_pow]; rfl
  rw [e, abs_neg, abs_mul, abs_of_pos hp, hs]
  calc _ ≤ 1 / 2 * ((2 : ℝ) ^ Int.log 2 |a| * (1 / 2) ^ t) := by
        rw [← hs]
        exact mul_le_mul_of_nonneg_right (abs_sub_round _) hp.le
    _ ≤ 1 / 2 * (|a| * (1 / 2) ^ t) := by gcongr
    _ = (1 / 2) ^ (t + 1) * |a| := by ring

theorem fl_rel (t : Nat) (a : ℝ) : ∃ δ, |δ| ≤ (1 / 2) ^ (t + 1) ∧ fl t a = a * (1 + δ) := by
  rcases eq_or_ne a 0 with rfl | h
  · exact ⟨0, by simp, by simp [fl]⟩
  · refine ⟨(fl t a - a) / a, ?_, by field_simp; ring⟩
    rw [abs_div, div_le_iff₀ (abs_pos.2 h)]
    exact fl_err t a

/-- it satisfies the standard model -/
noncomputable def rounding (t : Nat) : Rounding (Fl t) where
  u := (1 / 2) ^ (t + 1)
  val := Fl.v
  u_nonneg := by positivity
  zero := rfl
  lt_iff _ _ := Iff.rfl
  add a b := fl_rel t (a.v + b.v)
  mul a b := fl_rel t (a.v * b.v)

end Fl

/-- a ReLU network with a skip connection -/
noncomputable def roundNet : Net [2] 2 [1] 1 (0 + (3 * 2 + 3) + 0 + (0 + (2 * 3 + 0)) + (1 * 5 + 1)) :=
  .seq 0 (.snoc (.snoc (.snoc (.snoc (.nil [2] 2 rfl (by norm_num))
    (.linear 1 0 (some 1) 2 3 (by norm_num) (by norm_num)))
    (.act .relu 2 [3] 3 rfl (by norm_num)))
    (.skip 3 4 (a := 3) (c := 2) (r := []) (.snoc (.nil [3] 3 rfl (by norm_num)) (.linear 5 2 none 3 2 (by norm_num) (by norm_num)))))
    (.linear 6 3 (some 4) 5 1 (by norm_num) (by norm_num)))

/-- a state holding it -/
noncomputable def roundStore (t : Nat) : Store (Fl t) where
  param i := ⟨if i = 0 then [3, 2] else if i = 1 then [3] else if i = 2 then [2, 3] else if i = 3 then [1, 5] else [1], fun j => ⟨Fl.fl t (1 / (i + j + 1))⟩⟩
  fmaps i := if i = 0 ∨ i = 4 then some [] else none
  pidx _ := none
  hooks i := if i = 1 ∨ i = 2 ∨ i = 3 ∨ i = 6 then [0] else if i = 5 then [4] else []

theorem roundNet_relu : roundNet.ReluNet 5 := by simp [roundNet, Net.ReluNet, Chain.ReluNet]

theorem roundNet_ok (t : Nat) : roundNet.Ok ((roundStore t).image Fl.v) := by
  refine ⟨by simp [roundNet, Net.ids, Chain.ids], ?_⟩
  simp [roundNet, Net.Wired, Chain.Wired, roundStore, Store.image, Tensor.map, Net.mod, Linear.mod, Activation.toMod, SkipConnection.mod, PureLayer.toMod]

/-- In single precision, for four inputs, every weight is off by at most one part in a million. -/
example (x : Tensor (Fl 23)) (hx : x.shape = [4, 2]) :
    ∃ y, ((roundNet.modIn (fun a => ⟨a⟩) (fun f a => ⟨f a.v⟩)).forward x (roundStore 23)).1 = .ok y ∧
      ∃ wt, Returns roundNet.mod.getWeight ((roundStore 23).image Fl.v) wt ∧ ∀ b : Fin 4, ∃ w' : Fin (0 + (3 * 2 + 3) + 0 + (0 + (2 * 3 + 0)) + (1 * 5 + 1)) → ℝ,
        (∀ i, |w' i - wt.data i| ≤ 1 / 1000000 * |wt.data i|) ∧
        (y.data b).v = weightMap (k := 1) roundNet.mod ((roundStore 23).image Fl.v) (x.map Fl.v) b w' 0 := by
  have hb := C78_bound (m := 5) (Fl.rounding 23) (by simp only [Fl.rounding]; norm_num)
  obtain ⟨y, hy, -, wt, hwt, -, hw⟩ := C78_forward_backward_stable (Fl.rounding 23) (B := 4) roundNet_relu (roundNet_ok 23)
    (by simp [roundNet, Net.paramIds, Chain.paramIds]) (by norm_num) (by norm_num) hx (fun a => ⟨a⟩) (fun f a => ⟨f a.v⟩)
  refine ⟨y, hy, wt, hwt, fun b => ?_⟩
  obtain ⟨w', h1, h2⟩ := hw b
  refine ⟨w', fun i => (h1 i).trans (mul_le_mul_of_nonneg_right (hb.trans ?_) (abs_nonneg _)), ?_⟩
  · simp only [Fl.rounding]
    norm_num
  · have e := h2 0
    rw [show (b : Nat) * 1 + ((0 : Fin 1) : Nat) = b by simp] at e
    exact e

/-- A skip connection around a ReLU has no parameters, and no error. -/
example (sf : Store (Fl 23)) (h1 : sf.fmaps 1 = some []) (h2 : sf.hooks = fun i => if i = 2 then [1] else []) (x : Tensor (Fl 23)) (hx : x.shape = [4, 2]) :
    ∃ y r, (((Net.skip 0 1 (a := 2) (c := 2) (r := []) (.snoc (.nil [2] 2 rfl (by norm_num)) (.act .relu 2 [2] 2 rfl (by norm_num)))).modIn
      (fun a => ⟨a⟩) (fun f a => ⟨f a.v⟩)).forward x sf).1 = .ok y ∧
      Returns ((Net.skip 0 1 (a := 2) (c := 2) (r := []) (.snoc (.nil [2] 2 rfl (by norm_num)) (.act .relu 2 [2] 2 rfl (by norm_num)))).mod.forward
        (x.map Fl.v)) (sf.image Fl.v) r ∧ ∀ i < 16, (y.data i).v = r.data i := by
  obtain ⟨y, r, hy, hr, -, h⟩ := C78_no_parameters_exact (m := 0) (Fl.rounding 23) (B := 4) (sf := sf) (x := x)
    (N := .skip 0 1 (a := 2) (c := 2) (r := []) (.snoc (.nil [2] 2 rfl (by norm_num)) (.act .relu 2 [2] 2 rfl (by norm_num))))
    (by simp [Net.ReluNet, Chain.ReluNet])
    ⟨by simp [Net.ids, Chain.ids], by simp [Net.Wired, Chain.Wired, Store.image, h1, h2, Net.mod, Activation.toMod, PureLayer.toMod]⟩ (by norm_num) hx
    (fun a => ⟨a⟩) (fun f a => ⟨f a.v⟩)
  exact ⟨y, r, hy, hr, h⟩

/-- the Linear layer of the network above on one sample: rounding errors do occur in this arithmetic, and are bounded -/
example (x : Tensor (Fl 23)) (hx : x.shape = [1, 2]) : ∃ y r, ((Linear.mod 1 0 (some 1) 2 3 : Mod (Fl 23)).forward x (roundStore 23)).1 = .ok y ∧
    Returns ((Linear.mod 1 0 (some 1) 2 3 : Mod ℝ).forward (x.map Fl.v)) ((roundStore 23).image Fl.v) r := by
  obtain ⟨y, r, hy, hr, -⟩ := C78_linear_error (Fl.rounding 23) (B := 1) (id := 1) (wId := 0) (i := 2) (o := 3) (bId := some 1) (sf := roundStore 23) (x := x)
    (by norm_num) (by norm_num) (by simp [roundStore]) (by simp [roundStore]) (by norm_num) hx
  exact ⟨y, r, hy, hr⟩

/-- the arithmetic is not exact: with two significant digits, `3 + 2 = 4` or `6` -/
example : ((⟨3⟩ + ⟨2⟩ : Fl 1)).v ≠ 5 := by
  show Fl.fl 1 (3 + 2) ≠ 5
  have h : Int.log 2 |(3 + 2 : ℝ)| = 2 := by
    rw [show |(3 + 2 : ℝ)| = ((5 : ℕ) : ℝ) by norm_num, Int.log_natCast]
    rfl
  simp only [Fl.fl, h]
  intro h5
  have : ((round ((3 + 2 : ℝ) / 2 ^ ((2 : ℤ) - (1 : ℕ))) * 2 : ℤ) : ℝ) = ((5 : ℤ) : ℝ) := by
    push_cast
    rw [← h5]
    norm_num
  have := Int.cast_injective this
  omega

end Props
end NNJ
