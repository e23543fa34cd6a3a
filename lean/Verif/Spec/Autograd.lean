import Verif.Spec.Net

/-!
# What torch's autograd computes

`torch.autograd.grad(model(x), x, v)` and `torch.autograd.grad(model(x), model.parameters(), v)` for the forward passes of nnj, which
use torch functions only (and one `torch.autograd.Function`, nnj/truncexp.py:11-22).  For one sample: the backward formulas of the torch
functions (tools/autograd/derivatives.yaml of torch), in reverse order.  They are defined at every input, also at the kinks of ReLU and at
ties in MaxPool2d.  Independent of the matrices in Verif/Spec/Sem.lean.
-/

namespace NNJ
open Matrix

/-- Backward formula of the activation `a` applied to `x`, per unit of incoming gradient:
`threshold_backward` (result > 0), `sigmoid_backward` ((1 - y) y), `tanh_backward` (1 - y^2), cos for sin,
`softplus_backward` (1 above the threshold, z / (z + 1) with z = exp(beta x) below), nnj/truncexp.py:20-22 for TruncExp; for a user-defined layer the derivative of its function (0 where there is none). -/
noncomputable def Act.backward (a : Act) (x : ℝ) : ℝ :=
  match a with
  | relu => if 0 < max x 0 then 1 else 0
  | sigmoid => (1 - 1 / (1 + Real.exp (-x))) * (1 / (1 + Real.exp (-x)))
  | tanh => 1 - Real.tanh x ^ 2
  | sinusoidal => Real.cos x
  | softplus b t => if t < x * b then 1 else Real.exp (x * b) / (Real.exp (x * b) + 1)
  | truncExp => Real.exp (max (-15) (min 15 x))
  | custom f _ => _root_.deriv f x

/-- A Softplus unit is not above its threshold (`x * beta > threshold` selects the identity in torch); a user-defined layer computes the
derivative of its function. -/
def Act.Below : Act → ℝ → Prop
  | softplus b t, x => x * b ≤ t
  | custom f g, x => HasDerivAt f (g x (f x)) x
  | _, _ => True

/-- `x.reshape(b, -1).norm(dim=1)`, `1.0 / (norm + eps)`, `einsum("b,b...->b...")` backwards; the gradient of the norm is `x / norm`, and 0 at 0. -/
noncomputable def l2Backward {n : Nat} (eps : ℝ) (x g : Fin n → ℝ) (j : Fin n) : ℝ :=
  let u := 1 / (norm2 x + eps)
  u * g j + (∑ i, g i * x i) * (-(u * u)) * if norm2 x = 0 then 0 else x j / norm2 x

/-- gradient of a convolution wrt its input: the transposed convolution of the incoming gradient -/
noncomputable def convBackward (bId : Option Nat) (g : ConvDims) (w : Fin (g.c2 * g.c1 * g.kh * g.kw + biasLen bId g.c2) → ℝ)
    (d : Fin (g.c2 * g.h2 * g.w2) → ℝ) (m : Fin (g.c1 * g.h1 * g.w1)) : ℝ :=
  ∑ o : Fin g.c2, ∑ i : Fin g.kh, ∑ j : Fin g.kw,
    padAt (fun (r : Fin g.h2) (s : Fin g.w2) => d (pix o r s)) ((row m : Nat) + (g.ph : Int) - (i : Nat)) ((col m : Nat) + (g.pw : Int) - (j : Nat))
      * w (Fin.castAdd _ (kix o (chan m) i j))

/-- gradient of a convolution wrt its kernel: the correlation of the padded image with the incoming gradient -/
noncomputable def convBackwardW (g : ConvDims) (x : Fin (g.c1 * g.h1 * g.w1) → ℝ) (d : Fin (g.c2 * g.h2 * g.w2) → ℝ) (o : Fin g.c2) (c : Fin g.c1)
    (i : Fin g.kh) (j : Fin g.kw) : ℝ :=
  ∑ r : Fin g.h2, ∑ s : Fin g.w2, d (pix o r s) *
    padAt (fun (u : Fin g.h1) (v : Fin g.w1) => x (pix c u v)) ((r : Nat) + (i : Nat) - (g.ph : Int)) ((s : Nat) + (j : Nat) - (g.pw : Int))

mutual
/-- The gradients wrt the input and wrt the parameters (in `get_weight` order) for the incoming gradient `d`. -/
noncomputable def Net.backward : {s s' : List Nat} → {n k p : Nat} → Net s n s' k p → (Fin p → ℝ) → (Fin n → ℝ) → (Fin k → ℝ) → (Fin n → ℝ) × (Fin p → ℝ)
  | _, _, _, _, _, .linear _ _ bId i o _ _, w, x, d =>
    (fun j => ∑ k : Fin o, d k * w (Fin.castAdd _ (finProdFinEquiv (k, j))),
      Fin.append (fun c => d (finProdFinEquiv.symm c).1 * x (finProdFinEquiv.symm c).2)
        fun c => if h : c.val < o then d ⟨c, h⟩ else 0)
  | _, _, _, _, _, .act a _ _ _ _ _, _, x, d => (fun i => d i * a.backward (x i), fun _ => 0)
  | _, _, _, _, _, .flatten _ _ _ _ _, _, _, d => (d, fun _ => 0)
  | _, _, _, _, _, .reshape _ _ _ _ _ _ _ _ _, _, _, d => (d, fun _ => 0)
  | _, _, _, _, _, .l2norm _ eps _ _ _ _ _, _, x, d => (l2Backward eps x d, fun _ => 0)
  | _, _, _, _, _, .conv _ _ bId g, w, x, d =>
    (convBackward bId g w d,
      Fin.append (fun m => convBackwardW g x d (chan (finProdFinEquiv.symm m).1) (row (finProdFinEquiv.symm m).1) (col (finProdFinEquiv.symm m).1)
          (finProdFinEquiv.symm m).2)
        fun c => if h : c.val < g.c2 then ∑ r : Fin g.h2, ∑ s : Fin g.w2, d (pix ⟨c, h⟩ r s) else 0)
  | _, _, _, _, _, .upsample _ _ _ _ r _ _ _ _, _, _, d =>
    (fun m => ∑ i : Fin r, ∑ j : Fin r, d (pix (chan m) (finProdFinEquiv (row m, i)) (finProdFinEquiv (col m, j))), fun _ => 0)
  | _, _, _, _, _, .maxpool _ g, _, x, d =>
    (fun m => ∑ k : Fin (g.c * g.h2 * g.w2), if (m : Nat) = (chan k : Fin g.c) * (g.h * g.w) + poolPos g.a x k then d k else 0, fun _ => 0)
  | _, _, _, _, _, .seq _ c, w, x, d => c.backward w x d
  | _, _, _, _, _, @Net.skip _ _ _ n k _ _ _ _ ch, w, x, d =>
    let r := ch.backward w x (wr d)
    (fun j => (wl d : Fin n → ℝ) j + r.1 j, r.2)
/-- The layers in reverse order, each at the value it was given in the forward pass. -/
noncomputable def Chain.backward : {s s' : List Nat} → {n k p l : Nat} → Chain s n s' k p l → (Fin p → ℝ) → (Fin n → ℝ) → (Fin k → ℝ) →
    (Fin n → ℝ) × (Fin p → ℝ)
  | _, _, _, _, _, _, .nil _ _ _ _, _, _, d => (d, fun _ => 0)
  | _, _, _, _, _, _, .snoc c m, w, x, d =>
    let r := m.backward (wr w) (c.sem.f (wl w) x) d
    let r' := c.backward (wl w) x r.1
    (r'.1, Fin.append r'.2 r.2)
end

mutual
/-- No Softplus unit is above its threshold, and the layers L2Norm are used where their `jacobian` is right (C31). -/
def Net.Unsaturated : {s s' : List Nat} → {n k p : Nat} → Net s n s' k p → (Fin p → ℝ) → (Fin n → ℝ) → Prop
  | _, _, _, _, _, .act a _ _ _ _ _, _, x => ∀ i, a.Below (x i)
  | _, _, _, _, _, .l2norm _ eps _ _ _ _ _, _, x => (eps = 0 ∧ norm2 x ≠ 0) ∨ (eps ≠ 0 ∧ norm2 x = 0)
  | _, _, _, _, _, .seq _ c, w, x => c.Unsaturated w x
  | _, _, _, _, _, .skip _ _ ch, w, x => ch.Unsaturated w x
  | _, _, _, _, _, _, _, _ => True
def Chain.Unsaturated : {s s' : List Nat} → {n k p l : Nat} → Chain s n s' k p l → (Fin p → ℝ) → (Fin n → ℝ) → Prop
  | _, _, _, _, _, _, .nil _ _ _ _, _, _ => True
  | _, _, _, _, _, _, .snoc c m, w, x => c.Unsaturated (wl w) x ∧ m.Unsaturated (wr w) (c.sem.f (wl w) x)
end

end NNJ
