import Verif.Props.RoundVjp
import Verif.Proofs.RoundVjpW

/-!
# C82: rounding errors of vjp wrt the weights
-/

namespace NNJ.Props
open Tensor

section
variable {β : Type} [Zero β] [One β] [Add β] [Sub β] [Mul β] [Neg β] [Div β] [NatCast β] [LT β] [DecidableLT β] [Trans β] (R : Rounding β)
variable {s s' : List Nat} {n k p m : Nat} {N : Net s n s' k p} {B : Nat} {sf : Store β} {x v : Tensor β}

/-- C82: vjp wrt the weights of a network with parameters, built from Linear layers (with at most `m` outputs each), ReLU, Flatten, Reshape and Sequential,
in arithmetic with relative rounding errors of at most `u` in which multiplication by 1 is exact.  For each sample there are weights that differ from the
actual ones by a relative error of at most `(1 + u) ^ (m + 1) - 1` each, with which vjp in exact arithmetic, from the same feature maps, returns wrt the input
exactly the computed result, and wrt the weights the computed result up to a relative error of at most `u` in each entry. -/
theorem C82_vjp_weight (hone : ∀ a : β, R.val (a * 1) = R.val a) (hN : N.ReluSeq m) (h : N.Ok (sf.image R.val)) (hs : N.paramIds.Nodup) (hp : 0 < p)
    (hB : 0 < B) (hx : x.shape = B :: s) (hv : v.shape = [B, k]) (q : ℝ → β) (fn : (ℝ → ℝ) → β → β) :
    ∃ y sf' r g, (N.modIn q fn).forward x sf = (.ok y, sf') ∧ (N.modIn q fn).vjp x none v .weight sf = (.ok (some g), sf') ∧
      (N.modIn q fn).vjp x (some y) v .weight sf' = (.ok (some g), sf') ∧ (N.modIn q fn).vjp x (some y) v .input sf' = (.ok (some r), sf') ∧
      g.shape = [B, p] ∧ r.shape = [B, n] ∧
      ∀ b : Fin B, ∃ w : Nat → Nat → ℝ,
        (∀ i j, |w i j - R.val ((sf.param i).data j)| ≤ ((1 + R.u) ^ (m + 1) - 1) * |R.val ((sf.param i).data j)|) ∧
        (∃ r', Returns (N.mod.vjp (x.map R.val) (some (y.map R.val)) (v.map R.val) .input) ((sf'.image R.val).withParams w) (some r') ∧ r'.shape = [B, n] ∧
          ∀ c : Fin n, R.val (r.data (b * n + c)) = r'.data (b * n + c)) ∧
        ∃ g', Returns (N.mod.vjp (x.map R.val) (some (y.map R.val)) (v.map R.val) .weight) ((sf'.image R.val).withParams w) (some g') ∧ g'.shape = [B, p] ∧
          ∀ c : Fin p, |R.val (g.data (b * p + c)) - g'.data (b * p + c)| ≤ R.u * |g'.data (b * p + c)| := by
  obtain ⟨y, sf', hf, hy, hpar, hfit⟩ := round_caches R hN h hB hx q fn
  have hS : N.Shapes (sf'.image R.val) := by
    have e : (sf'.image R.val).param = (sf.image R.val).param := by simp only [Store.image, hpar]
    exact N.shapes_of (fun i => by rw [e]) h.wired.shapes
  obtain ⟨r, ro, h1, h1w, h2, h3⟩ := N.vjpBoth R hone q fn m sf' hB hN hs hS hfit hx hy hv
  have key : ∀ b : Fin B, ∃ w, Close R m sf' w ∧
      (∃ r', N.mod.vjp (x.map R.val) (some (y.map R.val)) (v.map R.val) .input ((sf'.image R.val).withParams w) = (.ok (some r'), (sf'.image R.val).withParams w) ∧
        r'.shape = [B, n] ∧ ∀ c : Fin n, r'.data (b * n + c) = R.val (r.data (b * n + c))) ∧
      ∃ ro', N.mod.vjp (x.map R.val) (some (y.map R.val)) (v.map R.val) .weight ((sf'.image R.val).withParams w) = (.ok ro', (sf'.image R.val).withParams w) ∧
        RelW R B p b ro ro' := by
    intro b
    obtain ⟨w, hw, hsim⟩ := h3 b
    exact ⟨w, hw, hsim ((sf'.image R.val).withParams w) rfl (fun i _ => rfl) (v.map R.val) hv fun _ => rfl⟩
  cases ro with
  | none =>
    obtain ⟨w, -, -, ro', -, hr⟩ := key ⟨0, hB⟩
    cases ro' with
    | none => exact absurd (show p = 0 from hr) (by omega)
    | some _ => exact hr.elim
  | some g =>
    have hg : g.shape = [B, p] := by
      obtain ⟨w, -, -, ro', -, hr⟩ := key ⟨0, hB⟩
      cases ro' with
      | none => exact hr.elim
      | some _ => exact hr.2.1
    refine ⟨y, sf', r, g, hf, (N.vjpW_none q fn hN hf v).trans h1w, h1w, h1, hg, h2, fun b => ?_⟩
    obtain ⟨w, hw, ⟨r', e1, e2, e3⟩, ro', f1, f2⟩ := key b
    cases ro' with
    | none => exact f2.elim
    | some g' =>
      refine ⟨w, ?_, ⟨r', congrArg Prod.fst e1, e2, fun c => (e3 c).symm⟩, g', congrArg Prod.fst f1, f2.2.2.1, f2.2.2.2⟩
      rw [← hpar]
      exact hw
end

/-- The network of the previous example in single precision: a gradient of twelve numbers for each of four inputs, each of them off by at most a factor
`1 ± 6e-8` from that of a network whose weights are off by at most three parts in ten million. -/
example (x v : Tensor (Bin 23)) (hx : x.shape = [4, 2]) (hv : v.shape = [4, 1]) :
    ∃ (y : Tensor (Bin 23)) (sf' : Store (Bin 23)) (g : Tensor (Bin 23)),
      (rvNet.modIn (Bin.near 23) (fun f a => Bin.near 23 (f a.1))).vjp x none v .weight (rvStore 23) = (.ok (some g), sf') ∧ g.shape = [4, 12] ∧
      ∀ b : Fin 4, ∃ w : Nat → Nat → ℝ, (∀ i j, |w i j - (((rvStore 23).param i).data j).1| ≤ 3 / 10000000 * |(((rvStore 23).param i).data j).1|) ∧
        ∃ g', Returns (rvNet.mod.vjp (x.map Subtype.val) (some (y.map Subtype.val)) (v.map Subtype.val) .weight) ((sf'.image Subtype.val).withParams w) (some g') ∧
          ∀ c : Fin 12, |(g.data (b * 12 + c)).1 - g'.data (b * 12 + c)| ≤ 6 / 100000000 * |g'.data (b * 12 + c)| := by
  obtain ⟨y, sf', r, g, hf, h1, h2, h2', h3, -, h4⟩ := C82_vjp_weight (m := 3) (N := rvNet) (Bin.rounding 23) Bin.mul_one' (by simp [rvNet, Net.ReluSeq, Chain.ReluSeq])
    (rvNet_ok 23) (by simp [rvNet, Net.paramIds, Chain.paramIds]) (by norm_num) (by norm_num) hx hv (Bin.near 23) (fun f a => Bin.near 23 (f a.1))
  refine ⟨y, sf', g, h1, h3, fun b => ?_⟩
  obtain ⟨w, hw, -, g', e1, -, e3⟩ := h4 b
  refine ⟨w, fun i j => (hw i j).trans (mul_le_mul_of_nonneg_right ?_ (abs_nonneg _)), g', e1, fun c => (e3 c).trans (mul_le_mul_of_nonneg_right ?_ (abs_nonneg _))⟩
  · simp only [Bin.rounding]
    norm_num
  · simp only [Bin.rounding]
    norm_num

end NNJ.Props
