import Verif.Props.RoundVjpW
import Verif.Proofs.RoundDiag

/-!
# C83: diagonal metrics have small relative errors
-/

namespace NNJ.Props
open Tensor

section
variable {β : Type} [Zero β] [One β] [Add β] [Sub β] [Mul β] [Neg β] [Div β] [NatCast β] [LT β] [DecidableLT β] [Trans β] (R : Rounding β)
variable {s s' : List Nat} {n k p m : Nat} {N : Net s n s' k p} {B : Nat} {sf : Store β} {x d : Tensor β}

/-- C83: jTmjp with all flags set (diag_backprop), for a diagonal metric `d` with entries >= 0, of a network of Linear, ReLU, Flatten, Reshape and Sequential,
in arithmetic with relative rounding errors of at most `u`.  Wrt the input and wrt the weights every entry of the result has a *relative* error of at most
`(1 + u) ^ K - 1`, where `K` is the number of roundings on the way back, compared with the exact result from the same feature maps. -/
theorem C83_diag (hone : R.val 1 = 1) (hN : N.ReluSeq m) (h : N.Ok (sf.image R.val)) (hB : 0 < B)
    (hx : x.shape = B :: s) (hd : d.shape = [B, k]) (hpos : ∀ (b : Fin B) (c : Fin k), 0 ≤ R.val (d.data (b * k + c))) (q : ℝ → β) (fn : (ℝ → ℝ) → β → β) :
    ∃ y sf' r r', (N.modIn q fn).forward x sf = (.ok y, sf') ∧
      (N.modIn q fn).jTmjp x none (some d) .input true true true sf = (.ok (.tensor r), sf') ∧
      (N.modIn q fn).jTmjp x (some y) (some d) .input true true true sf' = (.ok (.tensor r), sf') ∧
      Returns (N.mod.jTmjp (x.map R.val) (some (y.map R.val)) (some (d.map R.val)) .input true true true) (sf'.image R.val) (.tensor r') ∧
      r.shape = [B, n] ∧ r'.shape = [B, n] ∧
      (∀ (b : Fin B) (c : Fin n), 0 ≤ r'.data (b * n + c) ∧
        |R.val (r.data (b * n + c)) - r'.data (b * n + c)| ≤ ((1 + R.u) ^ N.roundings - 1) * r'.data (b * n + c)) ∧
      (0 < p → ∃ g g', (N.modIn q fn).jTmjp x none (some d) .weight true true true sf = (.ok (.tensor g), sf') ∧
        (N.modIn q fn).jTmjp x (some y) (some d) .weight true true true sf' = (.ok (.tensor g), sf') ∧
        Returns (N.mod.jTmjp (x.map R.val) (some (y.map R.val)) (some (d.map R.val)) .weight true true true) (sf'.image R.val) (.tensor g') ∧
        g.shape = [B, p] ∧ g'.shape = [B, p] ∧
        ∀ (b : Fin B) (c : Fin p), 0 ≤ g'.data (b * p + c) ∧
          |R.val (g.data (b * p + c)) - g'.data (b * p + c)| ≤ ((1 + R.u) ^ N.roundings - 1) * g'.data (b * p + c)) := by
  obtain ⟨y, sf', hf, hy, hpar, hfit⟩ := round_caches R hN h hB hx q fn
  have hS : N.Shapes (sf'.image R.val) := by
    have e : (sf'.image R.val).param = (sf.image R.val).param := by simp only [Store.image, hpar]
    exact N.shapes_of (fun i => by rw [e]) h.wired.shapes
  have hD : RelD R 0 B k d (d.map R.val) := ⟨hd, hd, fun b c => ⟨hpos b c, 1, NearOne.one, (mul_one _).symm⟩⟩
  have key : ∀ {a : β} {a' : ℝ}, RelN R (0 + N.roundings) a a' → 0 ≤ a' ∧ |R.val a - a'| ≤ ((1 + R.u) ^ N.roundings - 1) * a' := by
    rintro a a' ⟨h0, θ, hθ, e⟩
    rw [Nat.zero_add] at hθ
    refine ⟨h0, ?_⟩
    have := hθ.dist (a := a')
    rwa [← e, abs_of_nonneg h0] at this
  obtain ⟨r, r', go, go', h1, h2, h3, h4, h5, h6⟩ := N.diagR R hone q fn m sf' hB hN hS hfit hx hy hD
  refine ⟨y, sf', r, r', hf, (N.jT_none q fn hN hf d .input).trans h1, h1, congrArg Prod.fst h2, h3.1, h3.2.1, fun b c => key (h3.2.2 b c), fun hp => ?_⟩
  cases go with
  | none =>
    cases go' with
    | none => exact absurd (show p = 0 from h6) (by omega)
    | some _ => exact h6.elim
  | some g =>
    cases go' with
    | none => exact h6.elim
    | some g' =>
      exact ⟨g, g', (N.jT_none q fn hN hf d .weight).trans h4, h4, congrArg Prod.fst h5, h6.2.1, h6.2.2.1, fun b c => key (h6.2.2.2 b c)⟩

/-- C83: the same for `matrix=None`, the identity metric, which the Gauss-Newton diagonals use, with `val` given. -/
theorem C83_identity (hone : R.val 1 = 1) (hN : N.ReluSeq m) (h : N.Ok (sf.image R.val)) (hB : 0 < B) (hx : x.shape = B :: s) (hp : 0 < p)
    (q : ℝ → β) (fn : (ℝ → ℝ) → β → β) :
    ∃ y sf' g g', (N.modIn q fn).forward x sf = (.ok y, sf') ∧
      (N.modIn q fn).jTmjp x (some y) none .weight true true true sf' = (.ok (.tensor g), sf') ∧
      Returns (N.mod.jTmjp (x.map R.val) (some (y.map R.val)) none .weight true true true) (sf'.image R.val) (.tensor g') ∧
      g.shape = [B, p] ∧ g'.shape = [B, p] ∧
      ∀ (b : Fin B) (c : Fin p), 0 ≤ g'.data (b * p + c) ∧
        |R.val (g.data (b * p + c)) - g'.data (b * p + c)| ≤ ((1 + R.u) ^ N.roundings - 1) * g'.data (b * p + c) := by
  obtain ⟨y0, sf0, hf0, hy0, -⟩ := round_caches R hN h hB hx q fn
  obtain ⟨y, sf', r, r', hf, -, -, -, -, -, -, hw⟩ := C83_diag R (d := ones [B, k]) hone hN h hB hx rfl
    (fun _ _ => by show 0 ≤ R.val 1; rw [hone]; exact zero_le_one) q fn
  have e : y0 = y := by
    rw [hf0] at hf
    injection hf with h1 _
    injection h1
  obtain ⟨g, g', -, h2, h3, h4, h5, h6⟩ := hw hp
  rw [e] at hy0
  refine ⟨y, sf', g, g', hf, (N.jT_id q fn hN hB hx hy0 .weight sf').trans h2, ?_, h4, h5, h6⟩
  have e1 : (ones [B, k] : Tensor β).map R.val = ones [B, k] := by
    simp only [Tensor.map, ones, full, hone]
  rw [e1] at h3
  exact (congrArg Prod.fst (N.jT_id_real hN hB (x := x.map R.val) (y := y.map R.val) hx hy0 .weight (sf'.image R.val))).trans h3
end

/-- In single precision, three inputs of the network of C82: twelve entries, each within seven parts in ten million of the exact value. -/
example (x d : Tensor (Bin 23)) (hx : x.shape = [3, 2]) (hd : d.shape = [3, 1]) (hpos : ∀ (b : Fin 3) (c : Fin 1), 0 ≤ (d.data (b * 1 + c)).1) :
    ∃ (y : Tensor (Bin 23)) (sf' : Store (Bin 23)) (g : Tensor (Bin 23)) (g' : Tensor ℝ),
      (rvNet.modIn (Bin.near 23) (fun f a => Bin.near 23 (f a.1))).jTmjp x none (some d) .weight true true true (rvStore 23) = (.ok (.tensor g), sf') ∧
      Returns (rvNet.mod.jTmjp (x.map Subtype.val) (some (y.map Subtype.val)) (some (d.map Subtype.val)) .weight true true true) (sf'.image Subtype.val) (.tensor g') ∧
      ∀ (b : Fin 3) (c : Fin 12), |(g.data (b * 12 + c)).1 - g'.data (b * 12 + c)| ≤ 7 / 10000000 * g'.data (b * 12 + c) := by
  obtain ⟨y, sf', r, r', -, -, -, -, -, -, -, hw⟩ := C83_diag (m := 3) (N := rvNet) (Bin.rounding 23) rfl (by simp [rvNet, Net.ReluSeq, Chain.ReluSeq])
    (rvNet_ok 23) (by norm_num) hx hd hpos (Bin.near 23) (fun f a => Bin.near 23 (f a.1))
  obtain ⟨g, g', h1, -, h2, -, -, h3⟩ := hw (by norm_num)
  refine ⟨y, sf', g, g', h1, h2, fun b c => (h3 b c).2.trans (mul_le_mul_of_nonneg_right ?_ (h3 b c).1)⟩
  simp only [Bin.rounding, rvNet, Net.roundings, Chain.roundings]
  norm_num

/-- the Gauss-Newton diagonal of this network for five inputs -/
example (x : Tensor (Bin 23)) (hx : x.shape = [5, 2]) : ∃ (y : Tensor (Bin 23)) (sf' : Store (Bin 23)) (g : Tensor (Bin 23)) (g' : Tensor ℝ),
      (rvNet.modIn (Bin.near 23) (fun f a => Bin.near 23 (f a.1))).jTmjp x (some y) none .weight true true true sf' = (.ok (.tensor g), sf') ∧
      Returns (rvNet.mod.jTmjp (x.map Subtype.val) (some (y.map Subtype.val)) none .weight true true true) (sf'.image Subtype.val) (.tensor g') ∧
      ∀ (b : Fin 5) (c : Fin 12), |(g.data (b * 12 + c)).1 - g'.data (b * 12 + c)| ≤ ((1 + (1 / 2) ^ 24) ^ 10 - 1) * g'.data (b * 12 + c) := by
  obtain ⟨y, sf', g, g', -, h1, h2, -, -, h3⟩ := C83_identity (m := 3) (N := rvNet) (Bin.rounding 23) rfl (by simp [rvNet, Net.ReluSeq, Chain.ReluSeq])
    (rvNet_ok 23) (by norm_num) hx (by norm_num) (Bin.near 23) (fun f a => Bin.near 23 (f a.1))
  exact ⟨y, sf', g, g', h1, h2, fun b c => (h3 b c).2⟩

theorem fl_one_add (t : Nat) : Fl.fl t (1 + (2 : ℝ) ^ (-(t + 2 : ℤ))) = 1 := by
  have h4 : (2 : ℝ) ^ (-(t + 2 : ℤ)) * 2 ^ (t : ℤ) = 1 / 4 := by
    rw [← zpow_add₀ two_ne_zero, show (-(t + 2 : ℤ) + t) = -2 by ring]; norm_num
  have hlt : (2 : ℝ) ^ (-(t + 2 : ℤ)) < 1 := zpow_lt_one_of_neg₀ one_lt_two (by omega)
  have hpos : (0 : ℝ) < 2 ^ (-(t + 2 : ℤ)) := by positivity
  set e := (2 : ℝ) ^ (-(t + 2 : ℤ)) with he
  have hl : Int.log 2 |1 + e| = 0 := by
    rw [abs_of_pos (by linarith)]
    refine le_antisymm ?_ ?_
    · have : Int.log 2 (1 + e) < 1 := (Int.lt_zpow_iff_log_lt one_lt_two (by linarith)).1 (by push_cast; rw [zpow_one]; linarith)
      omega
    · exact (Int.zpow_le_iff_le_log one_lt_two (by linarith)).1 (by push_cast; rw [zpow_zero]; linarith)
  unfold Fl.fl
  rw [hl, zero_sub]
  have h2 : (1 + e) / (2 : ℝ) ^ (-(t : ℤ)) = (2 ^ t : ℕ) + 1 / 4 := by
    rw [zpow_neg, div_inv_eq_mul, add_mul, one_mul, h4, zpow_natCast]; push_cast; rfl
  have h3 : round ((1 + e) / (2 : ℝ) ^ (-(t : ℤ))) = ((2 ^ t : ℕ) : ℤ) := by
    rw [h2, round_eq, Int.floor_eq_iff]
    constructor <;> push_cast <;> linarith
  rw [h3, zpow_neg, zpow_natCast]
  push_cast
  have : (2 : ℝ) ^ t ≠ 0 := by positivity
  field_simp

/-- `Linear(1, 3, bias=False)` with weights `1, 2^-(t+2), -1` -/
noncomputable def cancelStore (t : Nat) : Store (Bin t) where
  param _ := ⟨[3, 1], fun j => if j = 0 then 1 else if j = 1 then ⟨(2 : ℝ) ^ (-(t + 2 : ℤ)), 1, -(t + 2 : ℤ), by simpa using one_le_pow₀ one_le_two, by simp⟩
    else ⟨-1, -1, 0, by simpa using one_le_pow₀ one_le_two, by simp⟩⟩
  fmaps _ := none
  pidx _ := none
  hooks _ := []

/-- C83: nothing of the kind holds for vjp: in any precision there is a Linear layer with three outputs whose computed vjp with the vector of ones is 0 although the exact
one is positive. -/
theorem C83_vjp_cancels (t : Nat) : ∃ r r', ∀ (x : Tensor (Bin t)) (x' : Tensor ℝ),
    ((Linear.mod 0 0 none 1 3 : Mod (Bin t)).vjp x none (ones [1, 3]) .input (cancelStore t)).1 = .ok (some r) ∧
    Returns ((Linear.mod 0 0 none 1 3 : Mod ℝ).vjp x' none (ones [1, 3]) .input) ((cancelStore t).image Subtype.val) (some r') ∧
    (r.data 0).1 = 0 ∧ 0 < r'.data 0 := by
  obtain ⟨r, h1, h2, h3⟩ := vjp_linear_eval (v := (ones [1, 3] : Tensor (Bin t))) (W := (cancelStore t).param 0) (B := 1) (i := 1) (o := 3) rfl rfl
  obtain ⟨r', e1, e2, e3⟩ := vjp_linear_eval (v := (ones [1, 3] : Tensor ℝ)) (W := ((cancelStore t).image Subtype.val).param 0) (B := 1) (i := 1) (o := 3) rfl rfl
  refine ⟨r, r', fun x x' => ⟨?_, ?_, ?_, ?_⟩⟩
  · show some <$> einsum% "bj,jk->bk" [ones [1, 3], (cancelStore t).param 0] = _
    rw [h1]; rfl
  · show some <$> einsum% "bj,jk->bk" [ones [1, 3], ((cancelStore t).image Subtype.val).param 0] = _
    rw [e1]; rfl
  · have := congrArg Subtype.val (h3 0 0)
    refine this.trans ?_
    have b1 : IsBin t 1 := (1 : Bin t).2
    have be : IsBin t ((2 : ℝ) ^ (-(t + 2 : ℤ))) := ⟨1, -(t + 2 : ℤ), by simpa using one_le_pow₀ one_le_two, by simp⟩
    have bm : IsBin t (-1) := ⟨-1, 0, by simpa using one_le_pow₀ one_le_two, by simp⟩
    show Fl.fl t (Fl.fl t (Fl.fl t (0 + Fl.fl t (1 * 1)) + Fl.fl t (1 * (2 : ℝ) ^ (-(t + 2 : ℤ)))) + Fl.fl t (1 * -1)) = 0
    rw [one_mul, one_mul, one_mul, fl_bin b1, zero_add, fl_bin b1, fl_bin be, fl_one_add, fl_bin bm, add_neg_cancel]
    simp [Fl.fl]
  · have := e3 0 0
    refine lt_of_lt_of_eq ?_ this.symm
    show 0 < (((0 : ℝ) + 1 * 1) + 1 * (2 : ℝ) ^ (-(t + 2 : ℤ))) + 1 * -1
    have : (0 : ℝ) < (2 : ℝ) ^ (-(t + 2 : ℤ)) := by positivity
    linarith

end NNJ.Props
