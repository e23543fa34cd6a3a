import Verif.Proofs.RoundVjp
import Verif.Props.Rounding
import Verif.Proofs.LooseNet

/-!
# C82: rounding errors of vjp
-/

namespace NNJ

mutual
theorem Net.ReluSeq.noPool {m : Nat} : {s s' : List Nat} → {n k p : Nat} → {N : Net s n s' k p} → N.ReluSeq m → N.NoPool
  | _, _, _, _, _, .linear _ _ _ _ _ _ _, _ => trivial
  | _, _, _, _, _, .act _ _ _ _ _ _, _ => trivial
  | _, _, _, _, _, .flatten _ _ _ _ _, _ => trivial
  | _, _, _, _, _, .reshape _ _ _ _ _ _ _ _ _, _ => trivial
  | _, _, _, _, _, .l2norm _ _ _ _ _ _ _, h => h.elim
  | _, _, _, _, _, .conv _ _ _ _, h => h.elim
  | _, _, _, _, _, .upsample _ _ _ _ _ _ _ _ _, h => h.elim
  | _, _, _, _, _, .maxpool _ _, h => h.elim
  | _, _, _, _, _, .seq _ c, h => Chain.ReluSeq.noPool (c := c) h
  | _, _, _, _, _, .skip _ _ _, h => h.elim
theorem Chain.ReluSeq.noPool {m : Nat} : {s s' : List Nat} → {n k p l : Nat} → {c : Chain s n s' k p l} → c.ReluSeq m → c.NoPool
  | _, _, _, _, _, _, .nil _ _ _ _, _ => trivial
  | _, _, _, _, _, _, .snoc _ _, h => ⟨Chain.ReluSeq.noPool h.1, Net.ReluSeq.noPool h.2⟩
end

namespace Props
open Tensor

section
variable {β : Type} [Zero β] [One β] [Add β] [Sub β] [Mul β] [Neg β] [Div β] [NatCast β] [LT β] [DecidableLT β] [Trans β] (R : Rounding β)
variable {s s' : List Nat} {n k p m : Nat} {N : Net s n s' k p} {B : Nat} {sf : Store β} {x v : Tensor β}

/-- the forward pass returns, keeps the parameters, and leaves feature maps of the right shapes -/
theorem round_caches (hN : N.ReluSeq m) (h : N.Ok (sf.image R.val)) (hB : 0 < B) (hx : x.shape = B :: s) (q : ℝ → β) (fn : (ℝ → ℝ) → β → β) :
    ∃ y sf', (N.modIn q fn).forward x sf = (.ok y, sf') ∧ y.shape = B :: s' ∧ sf'.param = sf.param ∧
      N.Fits B fun i => (sf'.fmaps i).map (List.map Tensor.shape) := by
  have hxb : IsBatch (x.map R.val) B s n fun b i => R.val (x.data (b * n + i)) := ⟨hx, fun _ _ => rfl⟩
  have hf := h.g.forward h.w hB hxb
  rw [Net.mdl_m] at hf
  obtain ⟨t, st', ht, hb, -, hc⟩ := hf
  have key := C75_same_shapes_and_exceptions (net_code q fn N hN.noPool) (c := .forward (x.map R.val)) (c' := .forward x) (.forward rfl)
    (image_same R.val sf)
  have e1 : (Use.forward (x.map R.val)).run N.mod (sf.image R.val) = (.ok (.tensor t), st') := Prog.bind_ok ht
  rw [e1] at key
  cases hr : (Use.forward x).run (N.modIn q fn) sf with
  | mk a sf' =>
    rw [hr] at key
    cases a with
    | error e => exact key.1.elim
    | ok r' =>
      obtain ⟨y, s1, h1, h2⟩ := NaN.bind_inv (p := (N.modIn q fn).forward x) (f := fun r => pure (PyVal.tensor r)) (s := sf) (b := r') (s' := sf') hr
      injection h2 with h2 h3
      injection h2 with h2
      subst h2 h3
      have hs : SameShape t y := key.1
      refine ⟨y, s1, h1, (show t.shape = y.shape from hs).symm.trans hb.1, N.fwd_param q fn hN h1, ?_⟩
      have hfit := N.fits_of_cache hc
      have : (fun i => (s1.fmaps i).map (List.map Tensor.shape)) = fun i => (st'.fmaps i).map (List.map Tensor.shape) :=
        funext fun i => (key.2.fmaps i).symm
      rw [this]
      exact hfit

/-- C82: vjp wrt the input of a network of Linear layers (with at most `m` outputs each), ReLU, Flatten, Reshape and Sequential, in arithmetic with
relative rounding errors of at most `u` in which multiplication by 1 is exact.  For each sample the result is exactly what vjp returns in exact arithmetic
from the same feature maps (those of the rounded forward pass) with weights that differ from the actual ones by a relative error of at most
`(1 + u) ^ (m + 1) - 1` each. -/
theorem C82_vjp (hone : ∀ a : β, R.val (a * 1) = R.val a) (hN : N.ReluSeq m) (h : N.Ok (sf.image R.val)) (hs : N.paramIds.Nodup) (hB : 0 < B)
    (hx : x.shape = B :: s) (hv : v.shape = [B, k]) (q : ℝ → β) (fn : (ℝ → ℝ) → β → β) :
    ∃ y sf' r, (N.modIn q fn).forward x sf = (.ok y, sf') ∧ (N.modIn q fn).vjp x none v .input sf = (.ok (some r), sf') ∧
      (N.modIn q fn).vjp x (some y) v .input sf' = (.ok (some r), sf') ∧ r.shape = [B, n] ∧
      ∀ b : Fin B, ∃ w : Nat → Nat → ℝ,
        (∀ i j, |w i j - R.val ((sf.param i).data j)| ≤ ((1 + R.u) ^ (m + 1) - 1) * |R.val ((sf.param i).data j)|) ∧
        ∃ r', Returns (N.mod.vjp (x.map R.val) (some (y.map R.val)) (v.map R.val) .input) ((sf'.image R.val).withParams w) (some r') ∧ r'.shape = [B, n] ∧
          ∀ c : Fin n, R.val (r.data (b * n + c)) = r'.data (b * n + c) := by
  obtain ⟨y, sf', hf, hy, hp, hfit⟩ := round_caches R hN h hB hx q fn
  have hS : N.Shapes (sf'.image R.val) := by
    have e : (sf'.image R.val).param = (sf.image R.val).param := by simp only [Store.image, hp]
    exact N.shapes_of (fun i => by rw [e]) h.wired.shapes
  obtain ⟨r, h1, h2, h3⟩ := N.vjpR R hone q fn m sf' hB hN hs hS hfit hx hy hv
  refine ⟨y, sf', r, hf, (N.vjp_none q fn hN hf v).trans h1, h1, h2, fun b => ?_⟩
  obtain ⟨w, hw, hsim⟩ := h3 b
  rw [← hp]
  obtain ⟨r', e1, e2, e3⟩ := hsim ((sf'.image R.val).withParams w) rfl (fun i _ => rfl) (v.map R.val) hv fun _ => rfl
  exact ⟨w, hw, r', congrArg Prod.fst e1, e2, fun c => (e3 c).symm⟩

set_option linter.unusedSectionVars false in
/-- C82: the error of vjp of one Linear layer. -/
theorem C82_linear_error {id wId i o : Nat} {bId : Option Nat} {y : Option (Tensor β)} {x' : Tensor ℝ} {y' : Option (Tensor ℝ)}
    (hW : (sf.param wId).shape = [o, i]) (hv : v.shape = [B, o]) :
    ∃ r r', ((Linear.mod id wId bId i o : Mod β).vjp x y v .input sf).1 = .ok (some r) ∧
      Returns ((Linear.mod id wId bId i o : Mod ℝ).vjp x' y' (v.map R.val) .input) (sf.image R.val) (some r') ∧ r.shape = [B, i] ∧ r'.shape = [B, i] ∧
      ∀ (b : Fin B) (c : Fin i), |R.val (r.data (b * i + c)) - r'.data (b * i + c)| ≤ ((1 + R.u) ^ (o + 1) - 1) *
        ∑ j : Fin o, |R.val (v.data (b * o + j))| * |R.val ((sf.param wId).data (j * i + c))| := by
  obtain ⟨r, h1, h2, h3⟩ := vjp_linear_eval hv hW
  obtain ⟨r', e1, e2, e3⟩ := vjp_linear_eval (v := v.map R.val) (W := (sf.param wId).map R.val) hv hW
  refine ⟨r, r', ?_, ?_, h2, e2, fun b c => ?_⟩
  · show some <$> einsum% "bj,jk->bk" [v, sf.param wId] = _
    rw [h1]; rfl
  · show some <$> einsum% "bj,jk->bk" [v.map R.val, (sf.param wId).map R.val] = _
    rw [e1]; rfl
  · obtain ⟨θ, hθ, hs⟩ := R.dot (fun j => v.data (b * o + j)) (fun j => (sf.param wId).data (j * i + c)) o
    rw [h3 b c, hs, e3 b c, sumRange_eq, ← Finset.sum_sub_distrib, Finset.mul_sum]
    refine (Finset.abs_sum_le_sum_abs _ _).trans (Finset.sum_le_sum fun j _ => ?_)
    show |_ - R.val (v.data (b * o + j)) * R.val ((sf.param wId).data (j * i + c))| ≤ _
    rw [show R.val ((sf.param wId).data (j * i + c)) * θ j * R.val (v.data (b * o + j)) - R.val (v.data (b * o + j)) * R.val ((sf.param wId).data (j * i + c)) =
      R.val (v.data (b * o + j)) * (R.val ((sf.param wId).data (j * i + c)) * θ j - R.val ((sf.param wId).data (j * i + c))) by ring, abs_mul]
    calc _ ≤ |R.val (v.data (b * o + j))| * (((1 + R.u) ^ (o + 1) - 1) * |R.val ((sf.param wId).data (j * i + c))|) :=
          mul_le_mul_of_nonneg_left (hθ j).dist (abs_nonneg _)
      _ = _ := by ring
end

/-- a binary number with `t + 1` significant digits -/
def IsBin (t : Nat) (a : ℝ) : Prop := ∃ m e : ℤ, |m| ≤ 2 ^ (t + 1) ∧ a = m * (2 : ℝ) ^ e

theorem isBin_fl (t : Nat) (a : ℝ) : IsBin t (Fl.fl t a) := by
  refine ⟨round (a / (2 : ℝ) ^ (Int.log 2 |a| - t)), Int.log 2 |a| - t, ?_, rfl⟩
  have hp : (0 : ℝ) < (2 : ℝ) ^ (Int.log 2 |a| - t) := by positivity
  have h1 : |a| < (2 : ℝ) ^ (Int.log 2 |a| + 1) := by exact_mod_cast Int.lt_zpow_succ_log_self (R := ℝ) one_lt_two |a|
  have h2 : |a / (2 : ℝ) ^ (Int.log 2 |a| - t)| < 2 ^ (t + 1) := by
    rw [abs_div, abs_of_pos hp, div_lt_iff₀ hp]
    refine h1.trans_eq ?_
    rw [← zpow_natCast, ← zpow_add₀ two_ne_zero]
    congr 1
    push_cast
    ring
  have h3 := abs_sub_round (a / (2 : ℝ) ^ (Int.log 2 |a| - t))
  by_contra hlt
  push Not at hlt
  have h4 : ((2 : ℝ) ^ (t + 1) + 1) ≤ |(round (a / (2 : ℝ) ^ (Int.log 2 |a| - t)) : ℝ)| := by exact_mod_cast hlt
  have h5 := abs_sub_abs_le_abs_sub (round (a / (2 : ℝ) ^ (Int.log 2 |a| - t)) : ℝ) (a / (2 : ℝ) ^ (Int.log 2 |a| - t))
  rw [abs_sub_comm] at h3
  linarith

theorem fl_bin {t : Nat} {a : ℝ} (h : IsBin t a) : Fl.fl t a = a := by
  rcases eq_or_ne a 0 with rfl | h0
  · simp [Fl.fl]
  obtain ⟨m, e, hm, rfl⟩ := h
  set a := (m : ℝ) * 2 ^ e with ha
  have hl : (2 : ℝ) ^ Int.log 2 |a| ≤ |a| := by exact_mod_cast Int.zpow_log_le_self (R := ℝ) one_lt_two (abs_pos.2 h0)
  have hp : (0 : ℝ) < (2 : ℝ) ^ (Int.log 2 |a| - t) := by positivity
  have key : ∃ z : ℤ, a / (2 : ℝ) ^ (Int.log 2 |a| - t) = z := by
    rcases le_or_gt (Int.log 2 |a| - t) e with hle | hgt
    · obtain ⟨d, hd⟩ := Int.eq_ofNat_of_zero_le (sub_nonneg.2 hle)
      refine ⟨m * 2 ^ d, ?_⟩
      rw [div_eq_iff hp.ne']
      push_cast
      rw [mul_assoc, ← zpow_natCast, ← zpow_add₀ two_ne_zero]
      refine congrArg (fun z : ℤ => (m : ℝ) * 2 ^ z) ?_
      omega
    · have ham : |a| = |(m : ℝ)| * 2 ^ e := by rw [ha, abs_mul, abs_of_pos (by positivity : (0 : ℝ) < 2 ^ e)]
      have hm' : |(m : ℝ)| ≤ 2 ^ (t + 1) := by exact_mod_cast hm
      have hle : (2 : ℝ) ^ Int.log 2 |a| ≤ (2 : ℝ) ^ ((t : ℤ) + 1 + e) := by
        rw [zpow_add₀ two_ne_zero, show (2 : ℝ) ^ ((t : ℤ) + 1) = 2 ^ (t + 1) by norm_cast]
        refine hl.trans ?_
        rw [ham]
        gcongr
      have hL : Int.log 2 |a| = t + 1 + e := le_antisymm ((zpow_le_zpow_iff_right₀ one_lt_two).1 hle) (by omega)
      have hge : (2 : ℝ) ^ (t + 1) ≤ |(m : ℝ)| := by
        rw [hL, ham, zpow_add₀ two_ne_zero, show (2 : ℝ) ^ ((t : ℤ) + 1) = 2 ^ (t + 1) by norm_cast] at hl
        exact le_of_mul_le_mul_right hl (by positivity)
      have hmm : |m| = 2 ^ (t + 1) := by
        refine le_antisymm hm ?_
        exact_mod_cast hge
      have hz : Int.log 2 |a| - t = e + 1 := by omega
      rw [hz, ha, zpow_add_one₀ two_ne_zero]
      have he : (2 : ℝ) ^ e ≠ 0 := by positivity
      rcases (abs_eq (by positivity)).1 hmm with rfl | rfl
      · refine ⟨2 ^ t, ?_⟩
        push_cast
        field_simp
        ring
      · refine ⟨-2 ^ t, ?_⟩
        push_cast
        field_simp
        ring
  obtain ⟨z, hz⟩ := key
  unfold Fl.fl
  rw [hz, round_intCast, ← hz, div_mul_cancel₀ _ hp.ne']

/-- binary floating point numbers with `t + 1` significant digits, rounding to nearest, unbounded exponents -/
def Bin (t : Nat) : Type := { a : ℝ // IsBin t a }

namespace Bin
variable {t : Nat}

/-- the nearest such number -/
noncomputable def near (t : Nat) (a : ℝ) : Bin t := ⟨Fl.fl t a, isBin_fl t a⟩

noncomputable instance : Zero (Bin t) := ⟨⟨0, 0, 0, by positivity, by simp⟩⟩
noncomputable instance : One (Bin t) := ⟨⟨1, 1, 0, by simpa using one_le_pow₀ (one_le_two), by simp⟩⟩
noncomputable instance : Add (Bin t) := ⟨fun a b => near t (a.1 + b.1)⟩
noncomputable instance : Sub (Bin t) := ⟨fun a b => near t (a.1 - b.1)⟩
noncomputable instance : Mul (Bin t) := ⟨fun a b => near t (a.1 * b.1)⟩
noncomputable instance : Neg (Bin t) := ⟨fun a => near t (-a.1)⟩
noncomputable instance : Div (Bin t) := ⟨fun a b => near t (a.1 / b.1)⟩
noncomputable instance : NatCast (Bin t) := ⟨fun a => near t a⟩
instance : LT (Bin t) := ⟨fun a b => a.1 < b.1⟩
noncomputable instance : DecidableLT (Bin t) := fun _ _ => Classical.dec _
noncomputable instance : Trans (Bin t) := ⟨id, id, id, id, id, id⟩

/-- it satisfies the standard model -/
noncomputable def rounding (t : Nat) : Rounding (Bin t) where
  u := (1 / 2) ^ (t + 1)
  val := Subtype.val
  u_nonneg := by positivity
  zero := rfl
  lt_iff _ _ := Iff.rfl
  add a b := Fl.fl_rel t (a.1 + b.1)
  mul a b := Fl.fl_rel t (a.1 * b.1)

/-- multiplication by 1 is exact -/
theorem mul_one' (a : Bin t) : (rounding t).val (a * 1) = (rounding t).val a := by
  show Fl.fl t (a.1 * 1) = a.1
  rw [mul_one]
  exact fl_bin a.2

end Bin

/-- Sequential(Linear(2, 3), ReLU(), Sequential(Linear(3, 1, bias=False))) -/
noncomputable def rvNet : Net [2] 2 [1] 1 (0 + (3 * 2 + 3) + 0 + (0 + (1 * 3 + 0))) :=
  .seq 0 (.snoc (.snoc (.snoc (.nil [2] 2 rfl (by norm_num))
    (.linear 1 0 (some 1) 2 3 (by norm_num) (by norm_num)))
    (.act .relu 2 [3] 3 rfl (by norm_num)))
    (.seq 3 (.snoc (.nil [3] 3 rfl (by norm_num)) (.linear 4 2 none 3 1 (by norm_num) (by norm_num)))))

/-- a state holding it -/
noncomputable def rvStore (t : Nat) : Store (Bin t) where
  param i := ⟨if i = 0 then [3, 2] else if i = 1 then [3] else [1, 3], fun j => Bin.near t (1 / (i + j + 1))⟩
  fmaps i := if i = 0 ∨ i = 3 then some [] else none
  pidx _ := none
  hooks i := if i = 1 ∨ i = 2 ∨ i = 3 then [0] else if i = 4 then [3] else []

theorem rvNet_ok (t : Nat) : rvNet.Ok ((rvStore t).image Subtype.val) := by
  refine ⟨by simp [rvNet, Net.ids, Chain.ids], ?_⟩
  simp [rvNet, Net.Wired, Chain.Wired, rvStore, Store.image, Tensor.map, Net.mod, Linear.mod, Activation.toMod, Sequential.mod, PureLayer.toMod]
  rfl

/-- In single precision, for four inputs and any vector, every weight is off by at most three parts in ten million. -/
example (x v : Tensor (Bin 23)) (hx : x.shape = [4, 2]) (hv : v.shape = [4, 1]) :
    ∃ (y : Tensor (Bin 23)) (sf' : Store (Bin 23)) (r : Tensor (Bin 23)), (rvNet.modIn (Bin.near 23) (fun f a => Bin.near 23 (f a.1))).vjp x none v .input (rvStore 23) = (.ok (some r), sf') ∧
      ∀ b : Fin 4, ∃ w : Nat → Nat → ℝ, (∀ i j, |w i j - (((rvStore 23).param i).data j).1| ≤ 3 / 10000000 * |(((rvStore 23).param i).data j).1|) ∧
        ∃ r', Returns (rvNet.mod.vjp (x.map Subtype.val) (some (y.map Subtype.val)) (v.map Subtype.val) .input) ((sf'.image Subtype.val).withParams w) (some r') ∧
          ∀ c : Fin 2, (r.data (b * 2 + c)).1 = r'.data (b * 2 + c) := by
  obtain ⟨y, sf', r, hf, h1, h2, h3, h4⟩ := C82_vjp (m := 3) (N := rvNet) (Bin.rounding 23) Bin.mul_one' (by simp [rvNet, Net.ReluSeq, Chain.ReluSeq]) (rvNet_ok 23)
    (by simp [rvNet, Net.paramIds, Chain.paramIds]) (by norm_num) hx hv (Bin.near 23) (fun f a => Bin.near 23 (f a.1))
  refine ⟨y, sf', r, h1, fun b => ?_⟩
  obtain ⟨w, hw, r', e1, -, e3⟩ := h4 b
  refine ⟨w, fun i j => (hw i j).trans (mul_le_mul_of_nonneg_right ?_ (abs_nonneg _)), r', e1, e3⟩
  simp only [Bin.rounding]
  norm_num

/-- the inner layer on one sample -/
example (x v : Tensor (Bin 23)) (hv : v.shape = [1, 3]) : ∃ r r',
    ((Linear.mod 1 0 (some 1) 2 3 : Mod (Bin 23)).vjp x none v .input (rvStore 23)).1 = .ok (some r) ∧
      Returns ((Linear.mod 1 0 (some 1) 2 3 : Mod ℝ).vjp (x.map Subtype.val) none (v.map Subtype.val) .input) ((rvStore 23).image Subtype.val) (some r') := by
  obtain ⟨r, r', h1, h2, -⟩ := C82_linear_error (Bin.rounding 23) (sf := rvStore 23) (B := 1) (id := 1) (wId := 0) (i := 2) (o := 3) (bId := some 1)
    (x := x) (v := v) (y := none) (x' := x.map Subtype.val) (y' := none) rfl hv
  exact ⟨r, r', h1, h2⟩

end Props
end NNJ
