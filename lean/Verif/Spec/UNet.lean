import Verif.Spec.Net
import Verif.Proofs.PoolCore
import Mathlib.Tactic.Ring

/-!
# The network of UNet.ipynb

The expression of UNet.ipynb:96-150 on images with `16 h x 16 w` pixels.  The convolution made as object `i` has the parameters
`2 i` (weight) and `2 i + 1` (bias).  (The notebook takes images of 512 x 512 pixels: `h = w = 32`.)
-/

namespace NNJ
namespace UNet

/-- the same network, its number of outputs written differently -/
def castK {s s' : List Nat} {n k k' p : Nat} (e : k = k') (N : Net s n s' k p) : Net s n s' k' p := e ▸ N

/-- 3 x 3 with padding 1 -/
def dims3 (c1 c2 h w : Nat) (h1 : 0 < c1) (h2 : 0 < c2) (hh : 0 < h) (hw : 0 < w) : ConvDims where
  c1 := c1
  h1 := h
  w1 := w
  c2 := c2
  h2 := h
  w2 := w
  kh := 3
  kw := 3
  ph := 1
  pw := 1
  vmap := true
  hc1 := h1
  hc2 := h2
  pkh := by norm_num
  pkw := by norm_num
  lph := by norm_num
  lpw := by norm_num
  ph1 := hh
  pw1 := hw
  ph2 := hh
  pw2 := hw
  eh := by omega
  ew := by omega

/-- 1 x 1 without padding -/
def dims1 (c1 c2 h w : Nat) (h1 : 0 < c1) (h2 : 0 < c2) (hh : 0 < h) (hw : 0 < w) : ConvDims where
  c1 := c1
  h1 := h
  w1 := w
  c2 := c2
  h2 := h
  w2 := w
  kh := 1
  kw := 1
  ph := 0
  pw := 0
  vmap := true
  hc1 := h1
  hc2 := h2
  pkh := by norm_num
  pkw := by norm_num
  lph := by norm_num
  lpw := by norm_num
  ph1 := hh
  pw1 := hw
  ph2 := hh
  pw2 := hw
  eh := by omega
  ew := by omega

theorem poolLen_double (h : Nat) : Torch.poolLen (h * 2) 2 2 0 1 false = h := by
  simp [Torch.poolLen]
  omega

/-- windows of 2 x 2 pixels -/
def poolDims (c h w : Nat) (hc : 0 < c) (hh : 0 < h) (hw : 0 < w) : PoolDims where
  a := { kernel := (2, 2), stride := (2, 2) }
  c := c
  h := h * 2
  w := w * 2
  h2 := h
  w2 := w
  hc := hc
  fits := by
    refine PoolSizes.fits_of_stride ⟨by omega, by omega, hh, hw, by decide, by decide, by decide, by decide, by decide, by decide, by decide, by decide,
      poolLen_double h, poolLen_double w, ?_⟩ (by decide) (by decide)
    intro y hy z hz
    refine List.ne_nil_of_mem (a := y * 2 * (w * 2) + z * 2) ?_
    simp only [Torch.window, List.mem_flatMap, List.mem_range, List.mem_filterMap]
    refine ⟨0, by norm_num, 0, by norm_num, ?_⟩
    rw [if_pos (by simp; omega)]
    have e : ∀ u : Nat, ((u : Int) * 2).toNat = u * 2 := by omega
    simp [e]

variable (h w : Nat) (hh : 0 < h) (hw : 0 < w)

/-- `nnj.Conv2d(c1, c2, 3, stride=1, padding=1)` -/
def conv3 (i c1 c2 : Nat) (h1 : 0 < c1 := by norm_num) (h2 : 0 < c2 := by norm_num) :
    Net [c1, h, w] (c1 * h * w) [c2, h, w] (c2 * h * w) (c2 * c1 * 3 * 3 + c2) :=
  .conv i (2 * i) (some (2 * i + 1)) (dims3 c1 c2 h w h1 h2 hh hw)

/-- `nnj.Conv2d(c1, c2, 1, stride=1, padding=0)` -/
def conv1 (i c1 c2 : Nat) (h1 : 0 < c1 := by norm_num) (h2 : 0 < c2 := by norm_num) :
    Net [c1, h, w] (c1 * h * w) [c2, h, w] (c2 * h * w) (c2 * c1 * 1 * 1 + c2) :=
  .conv i (2 * i) (some (2 * i + 1)) (dims1 c1 c2 h w h1 h2 hh hw)

theorem size3 (c : Nat) : size [c, h, w] = c * h * w := by simp only [size]; ring

/-- `nnj.Tanh()` -/
def tanh (i c : Nat) (hc : 0 < c := by norm_num) : Net [c, h, w] (c * h * w) [c, h, w] (c * h * w) 0 :=
  .act .tanh i _ _ (size3 h w c) (by positivity)

/-- `nnj.MaxPool2d(2)` -/
def pool (i c : Nat) (hc : 0 < c := by norm_num) : Net [c, h * 2, w * 2] (c * (h * 2) * (w * 2)) [c, h, w] (c * h * w) 0 :=
  .maxpool i (poolDims c h w hc hh hw)

/-- `nnj.Upsample(scale_factor=2)` -/
def up (i c : Nat) (hc : 0 < c := by norm_num) : Net [c, h, w] (c * h * w) [c, h * 2, w * 2] (c * (h * 2) * (w * 2)) 0 :=
  .upsample i c h w 2 hc hh hw (by norm_num)

/-- no layers yet -/
def start (c : Nat) (hc : 0 < c := by norm_num) : Chain [c, h, w] (c * h * w) [c, h, w] (c * h * w) 0 0 :=
  .nil _ _ (size3 h w c) (by positivity)

/-- `nnj.SkipConnection(...)`, whose Sequential is object `i + 1` -/
def skip {h w : Nat} {c d p l : Nat} (i : Nat) (ch : Chain [c, h, w] (c * h * w) [d, h, w] (d * h * w) p (l + 1)) :
    Net [c, h, w] (c * h * w) [c + d, h, w] ((c + d) * h * w) p :=
  castK (by ring) (.skip i (i + 1) ch)

/-- `Conv2d(c1, c2), Tanh(), Conv2d(c2, c3), Tanh()` after some other layers -/
def two {h w : Nat} {s : List Nat} {n p l : Nat} (hh : 0 < h) (hw : 0 < w) (i c1 c2 c3 : Nat) (ch : Chain s n [c1, h, w] (c1 * h * w) p l)
    (h1 : 0 < c1 := by norm_num) (h2 : 0 < c2 := by norm_num) (h3 : 0 < c3 := by norm_num) :
    Chain s n [c3, h, w] (c3 * h * w) (p + (c2 * c1 * 3 * 3 + c2) + 0 + (c3 * c2 * 3 * 3 + c3) + 0) (l + 1 + 1 + 1 + 1) :=
  .snoc (.snoc (.snoc (.snoc ch (conv3 h w hh hw i c1 c2 h1 h2)) (tanh h w hh hw (i + 1) c2 h2)) (conv3 h w hh hw (i + 2) c2 c3 h2 h3))
    (tanh h w hh hw (i + 3) c3 h3)

/-- the lowest level: UNet.ipynb:119-126 -/
def level4 : Net [512, h * 2, w * 2] (512 * (h * 2) * (w * 2)) [1024, h * 2, w * 2] (1024 * (h * 2) * (w * 2)) 9438720 :=
  skip 70 (.snoc (two hh hw 73 512 1024 512
    (.snoc (start (h * 2) (w * 2) (by omega) (by omega) 512) (pool h w hh hw 72 512))) (up h w hh hw 77 512))

/-- UNet.ipynb:113-132 -/
def level3 : Net [256, h * 2 * 2, w * 2 * 2] (256 * (h * 2 * 2) * (w * 2 * 2)) [512, h * 2 * 2, w * 2 * 2] (512 * (h * 2 * 2) * (w * 2 * 2)) 18877696 :=
  have hh' : 0 < h * 2 := by omega
  have hw' : 0 < w * 2 := by omega
  skip 50 (.snoc (two hh' hw' 57 1024 512 256 (.snoc (two hh' hw' 53 256 512 512
    (.snoc (start (h * 2 * 2) (w * 2 * 2) (by omega) (by omega) 256) (pool (h * 2) (w * 2) hh' hw' 52 256)))
    (level4 h w hh hw))) (up (h * 2) (w * 2) hh' hw' 61 256))

/-- UNet.ipynb:107-138 -/
def level2 : Net [128, h * 2 * 2 * 2, w * 2 * 2 * 2] (128 * (h * 2 * 2 * 2) * (w * 2 * 2 * 2)) [256, h * 2 * 2 * 2, w * 2 * 2 * 2] (256 * (h * 2 * 2 * 2) * (w * 2 * 2 * 2)) 21237888 :=
  have hh' : 0 < h * 2 * 2 := by omega
  have hw' : 0 < w * 2 * 2 := by omega
  skip 30 (.snoc (two hh' hw' 37 512 256 128 (.snoc (two hh' hw' 33 128 256 256
    (.snoc (start (h * 2 * 2 * 2) (w * 2 * 2 * 2) (by omega) (by omega) 128) (pool (h * 2 * 2) (w * 2 * 2) hh' hw' 32 128)))
    (level3 h w hh hw))) (up (h * 2 * 2) (w * 2 * 2) hh' hw' 41 128))

/-- UNet.ipynb:101-144 -/
def level1 : Net [64, h * 2 * 2 * 2 * 2, w * 2 * 2 * 2 * 2] (64 * (h * 2 * 2 * 2 * 2) * (w * 2 * 2 * 2 * 2)) [128, h * 2 * 2 * 2 * 2, w * 2 * 2 * 2 * 2] (128 * (h * 2 * 2 * 2 * 2) * (w * 2 * 2 * 2 * 2)) 21828160 :=
  have hh' : 0 < h * 2 * 2 * 2 := by omega
  have hw' : 0 < w * 2 * 2 * 2 := by omega
  skip 10 (.snoc (two hh' hw' 17 256 128 64 (.snoc (two hh' hw' 13 64 128 128
    (.snoc (start (h * 2 * 2 * 2 * 2) (w * 2 * 2 * 2 * 2) (by omega) (by omega) 64) (pool (h * 2 * 2 * 2) (w * 2 * 2 * 2) hh' hw' 12 64)))
    (level2 h w hh hw))) (up (h * 2 * 2 * 2) (w * 2 * 2 * 2) hh' hw' 21 64))

/-- `UNet`: UNet.ipynb:96-150.  Its number of parameters is the one printed in the notebook, UNet.ipynb:91. -/
def unet : Net [1, h * 2 * 2 * 2 * 2, w * 2 * 2 * 2 * 2] (1 * (h * 2 * 2 * 2 * 2) * (w * 2 * 2 * 2 * 2)) [1, h * 2 * 2 * 2 * 2, w * 2 * 2 * 2 * 2] (1 * (h * 2 * 2 * 2 * 2) * (w * 2 * 2 * 2 * 2)) 21976513 :=
  have hh' : 0 < h * 2 * 2 * 2 * 2 := by omega
  have hw' : 0 < w * 2 * 2 * 2 * 2 := by omega
  .seq 0 (.snoc (two hh' hw' 5 128 64 64 (.snoc (two hh' hw' 1 1 64 64 (start (h * 2 * 2 * 2 * 2) (w * 2 * 2 * 2 * 2) hh' hw' 1)) (level1 h w hh hw)))
    (conv1 (h * 2 * 2 * 2 * 2) (w * 2 * 2 * 2 * 2) hh' hw' 9 64 1))

end UNet
end NNJ
