import Verif.Spec.Sem
import Verif.Torch.Conv
import Mathlib.Algebra.BigOperators.Fin

/-!
# Mathematical semantics of Conv2d, Upsample and MaxPool2d

A sample with `c` channels of `h x w` pixels is flattened row-major, as nnj does
(`c * h * w` entries).
-/

namespace NNJ
open Matrix

/-- flat index of the pixel in row `y`, column `z` of channel `a` -/
def pix {c h w : Nat} (a : Fin c) (y : Fin h) (z : Fin w) : Fin (c * h * w) := finProdFinEquiv (finProdFinEquiv (a, y), z)

/-- channel, row and column of a flat index -/
def chan {c h w : Nat} (k : Fin (c * h * w)) : Fin c := (finProdFinEquiv.symm (finProdFinEquiv.symm k).1).1
def row {c h w : Nat} (k : Fin (c * h * w)) : Fin h := (finProdFinEquiv.symm (finProdFinEquiv.symm k).1).2
def col {c h w : Nat} (k : Fin (c * h * w)) : Fin w := (finProdFinEquiv.symm k).2

/-- flat index into the weight tensor `[c2, c1, kh, kw]` -/
def kix {c2 c1 kh kw : Nat} (o : Fin c2) (c : Fin c1) (i : Fin kh) (j : Fin kw) : Fin (c2 * c1 * kh * kw) :=
  finProdFinEquiv (pix o c i, j)

/-- the image `img` surrounded by zeros, at integer coordinates -/
def padAt {h w : Nat} (img : Fin h → Fin w → ℝ) (y z : Int) : ℝ :=
  if hc : (0 ≤ y ∧ y < h) ∧ (0 ≤ z ∧ z < w) then img ⟨y.toNat, by omega⟩ ⟨z.toNat, by omega⟩ else 0

/-! ### Conv2d with stride 1, no dilation, one group -/

/-- `y[o, r, s] = Σ_c Σ_i Σ_j x[c, r + i - ph, s + j - pw] W[o, c, i, j] + b[o]` (cross-correlation of the
zero-padded image), the weight tensor row-major first and the bias last in the weight vector -/
noncomputable def convF (bId : Option Nat) (c1 h1 w1 c2 h2 w2 kh kw ph pw : Nat)
    (w : Fin (c2 * c1 * kh * kw + biasLen bId c2) → ℝ) (x : Fin (c1 * h1 * w1) → ℝ) (k : Fin (c2 * h2 * w2)) : ℝ :=
  (∑ c : Fin c1, ∑ i : Fin kh, ∑ j : Fin kw,
    padAt (fun (u : Fin h1) (v : Fin w1) => x (pix c u v)) ((row k : Nat) + (i : Nat) - (ph : Int)) ((col k : Nat) + (j : Nat) - (pw : Int))
      * w (Fin.castAdd _ (kix (chan k) c i j)))
  + if h : (chan k : Nat) < biasLen bId c2 then w (Fin.natAdd _ ⟨chan k, h⟩) else 0

/-- `∂ y[o, r, s] / ∂ x[c, u, v]`: the weight `W[o, c, i, j]` with `r + i = u + ph` and `s + j = v + pw` -/
noncomputable def convJ (bId : Option Nat) (c1 h1 w1 c2 h2 w2 kh kw ph pw : Nat)
    (w : Fin (c2 * c1 * kh * kw + biasLen bId c2) → ℝ) : Matrix (Fin (c2 * h2 * w2)) (Fin (c1 * h1 * w1)) ℝ := fun k m =>
  ∑ i : Fin kh, ∑ j : Fin kw,
    if (row k : Nat) + (i : Nat) = (row m : Nat) + ph ∧ (col k : Nat) + (j : Nat) = (col m : Nat) + pw then
      w (Fin.castAdd _ (kix (chan k) (chan m) i j)) else 0

/-- `∂ y[o, r, s] / ∂ W[o', c, i, j] = [o = o'] x[c, r + i - ph, s + j - pw]` -/
noncomputable def convJK (c1 h1 w1 c2 h2 w2 kh kw ph pw : Nat) (x : Fin (c1 * h1 * w1) → ℝ) :
    Matrix (Fin (c2 * h2 * w2)) (Fin (c2 * c1 * kh * kw)) ℝ := fun k m =>
  let oci : Fin (c2 * c1 * kh) := (finProdFinEquiv.symm m).1
  let j : Fin kw := (finProdFinEquiv.symm m).2
  if chan k = chan oci then
    padAt (fun (u : Fin h1) (v : Fin w1) => x (pix (row oci) u v)) ((row k : Nat) + ((col oci : Fin kh) : Nat) - (ph : Int))
      ((col k : Nat) + (j : Nat) - (pw : Int))
  else 0

/-- `∂ y[o, r, s] / ∂ b[o'] = [o = o']` -/
def convJB (bId : Option Nat) (c2 h2 w2 : Nat) : Matrix (Fin (c2 * h2 * w2)) (Fin (biasLen bId c2)) ℝ := fun k c =>
  if (c : Nat) = (chan k : Fin c2) then 1 else 0

/-- semantics of `nnj.Conv2d` -/
noncomputable def convSem (bId : Option Nat) (c1 h1 w1 c2 h2 w2 kh kw ph pw : Nat) :
    Sem (c1 * h1 * w1) (c2 * h2 * w2) (c2 * c1 * kh * kw + biasLen bId c2) :=
  Sem.leaf (convF bId c1 h1 w1 c2 h2 w2 kh kw ph pw)
    (fun w _ => convJ bId c1 h1 w1 c2 h2 w2 kh kw ph pw w)
    (fun _ x => hcat (convJK c1 h1 w1 c2 h2 w2 kh kw ph pw x) (convJB bId c2 h2 w2))
    (fun _ _ => True)

/-! ### nearest-neighbour Upsample by an integer factor -/

/-- the pixel copied to output position `k`: row and column divided by the factor -/
def upSrc {c h w s : Nat} (k : Fin (c * (h * s) * (w * s))) : Fin (c * h * w) :=
  pix (chan k) (row k).divNat (col k).divNat

/-- semantics of `nnj.Upsample(scale_factor=s)` -/
noncomputable def upSem (c h w s : Nat) : Sem (c * h * w) (c * (h * s) * (w * s)) 0 :=
  Sem.leaf0 (fun x k => x (upSrc k)) (fun _ k m => if m = upSrc k then 1 else 0) (fun _ => True)

/-! ### MaxPool2d -/

/-- the values of channel `a`, by flat position in the `h x w` plane -/
def plane {c h w : Nat} (x : Fin (c * h * w) → ℝ) (a : Fin c) (q : Nat) : ℝ :=
  if hq : (a : Nat) * (h * w) + q < c * h * w then x ⟨(a : Nat) * (h * w) + q, hq⟩ else 0

/-- position (in the plane) of the first maximal value in the window of output position `k` -/
noncomputable def poolPos {c h w h2 w2 : Nat} (a : Torch.PoolArgs) (x : Fin (c * h * w) → ℝ) (k : Fin (c * h2 * w2)) : Nat :=
  Torch.argmax (plane x (chan k)) (Torch.window h w a (row k) (col k))

/-- semantics of `nnj.MaxPool2d`: each output is the first maximal value of its window; differentiable where that
maximum is attained once -/
noncomputable def poolSem (a : Torch.PoolArgs) (c h w h2 w2 : Nat) : Sem (c * h * w) (c * h2 * w2) 0 :=
  Sem.leaf0 (fun x k => plane x (chan k) (poolPos a x k))
    (fun x k m => if (m : Nat) = (chan k : Fin c) * (h * w) + poolPos a x k then 1 else 0)
    (fun x => ∀ k : Fin (c * h2 * w2), ∀ q ∈ Torch.window h w a (row k) (col k), q ≠ poolPos a x k →
      plane x (chan k) q < plane x (chan k) (poolPos a x k))

/-! ### Hyper-parameters and sizes -/

/-- Sizes of a Conv2d layer inside a network: `c1` channels of `h1 x w1` pixels to `c2` channels of `h2 x w2`
pixels with a `kh x kw` kernel, stride 1, padding `(ph, pw)` smaller than the kernel, no dilation, one group.
`vmap` is the value of the constructor argument `use_vmap_for_backprop`. -/
structure ConvDims where
  (c1 h1 w1 c2 h2 w2 kh kw ph pw : Nat)
  vmap : Bool
  hc1 : 0 < c1
  hc2 : 0 < c2
  pkh : 0 < kh
  pkw : 0 < kw
  lph : ph < kh
  lpw : pw < kw
  ph1 : 0 < h1
  pw1 : 0 < w1
  ph2 : 0 < h2
  pw2 : 0 < w2
  eh : h2 + kh = h1 + 2 * ph + 1
  ew : w2 + kw = w1 + 2 * pw + 1

/-- The pooling layer maps `h x w` planes to `h2 x w2` planes, through windows that all meet the image. -/
structure PoolSizes (a : Torch.PoolArgs) (h w h2 w2 : Nat) : Prop where
  hh : 0 < h
  hw : 0 < w
  hh2 : 0 < h2
  hw2 : 0 < w2
  k1 : 0 < a.kernel.1
  k2 : 0 < a.kernel.2
  d1 : 0 < a.dilation.1
  d2 : 0 < a.dilation.2
  s1 : 0 < a.stride.1
  s2 : 0 < a.stride.2
  p1 : a.padding.1 ≤ a.kernel.1 / 2
  p2 : a.padding.2 ≤ a.kernel.2 / 2
  l1 : Torch.poolLen h a.kernel.1 a.stride.1 a.padding.1 a.dilation.1 a.ceilMode = h2
  l2 : Torch.poolLen w a.kernel.2 a.stride.2 a.padding.2 a.dilation.2 a.ceilMode = w2
  ne : ∀ y < h2, ∀ z < w2, Torch.window h w a y z ≠ []

/-- ... and no pixel lies in the windows of two outputs. -/
structure PoolFits (a : Torch.PoolArgs) (h w h2 w2 : Nat) : Prop extends PoolSizes a h w h2 w2 where
  dis : ∀ y < h2, ∀ z < w2, ∀ y' < h2, ∀ z' < w2, ∀ q ∈ Torch.window h w a y z, q ∈ Torch.window h w a y' z' → y = y' ∧ z = z'

/-- A MaxPool2d layer inside a network: its hyper-parameters and sizes. -/
structure PoolDims where
  a : Torch.PoolArgs
  (c h w h2 w2 : Nat)
  hc : 0 < c
  fits : PoolFits a h w h2 w2

end NNJ
