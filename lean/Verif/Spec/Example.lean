import Verif.Spec.Api

/-!
# A concrete network

Used to show that the hypotheses of the properties can be met:
`Sequential(Linear(2, 3), Tanh(), SkipConnection(Linear(3, 2, bias=False), ReLU()), Sequential(Linear(5, 1)))`.
-/

namespace NNJ

/-- the network expression; module objects 0..8, parameters 0..4 -/
noncomputable def exNet : Net [2] 2 [1] 1 (0 + (3 * 2 + 3) + 0 + (0 + (2 * 3 + 0) + 0) + (0 + (1 * 5 + 1))) :=
  .seq 0 (.snoc (.snoc (.snoc (.snoc (.nil [2] 2 rfl (by norm_num))
    (.linear 1 0 (some 1) 2 3 (by norm_num) (by norm_num)))
    (.act .tanh 2 [3] 3 rfl (by norm_num)))
    (.skip 3 4 (a := 3) (c := 2) (r := []) (.snoc (.snoc (.nil [3] 3 rfl (by norm_num))
      (.linear 5 2 none 3 2 (by norm_num) (by norm_num)))
      (.act .relu 6 [2] 2 rfl (by norm_num)))))
    (.seq 7 (.snoc (.nil [5] 5 rfl (by norm_num)) (.linear 8 3 (some 4) 5 1 (by norm_num) (by norm_num)))))

/-- a state holding it -/
noncomputable def exStore : Store ℝ where
  param i := match i with
    | 0 => ⟨[3, 2], fun j => j⟩
    | 1 => ⟨[3], fun _ => 1⟩
    | 2 => ⟨[2, 3], fun j => j - 2⟩
    | 3 => ⟨[1, 5], fun j => 1 - j⟩
    | _ => ⟨[1], fun _ => 2⟩
  fmaps i := if i = 0 ∨ i = 4 ∨ i = 7 then some [] else none
  pidx _ := none
  hooks i := match i with
    | 1 => [0]
    | 2 => [0]
    | 3 => [0]
    | 5 => [4]
    | 6 => [4]
    | 7 => [0]
    | 8 => [7]
    | _ => []

theorem exNet_ok : exNet.Ok exStore := by
  refine ⟨by simp only [exNet, Net.ids, Chain.ids]; decide, ?_⟩
  simp [exNet, Net.Wired, Chain.Wired, exStore, Net.mod, Linear.mod, Activation.toMod, SkipConnection.mod, Sequential.mod, PureLayer.toMod]

/-- two samples -/
noncomputable def exInput : Tensor ℝ := ⟨[2, 2], fun i => i⟩

theorem exInput_isBatch : IsBatch exInput 2 [2] 2 (fun b i => (2 * b + i : ℝ)) :=
  ⟨rfl, fun b i => by simp [exInput]; ring⟩

/-! ### A convolutional network

`Sequential(Conv2d(1, 2, (2, 2), padding=(0, 1)), MaxPool2d(2), Upsample(scale_factor=2), ReLU(), Flatten(), Linear(8, 1))`
on 1 x 3 x 2 images. -/

/-- the convolution: 1 x 3 x 2 to 2 x 2 x 3 -/
def exConv : ConvDims where
  c1 := 1
  h1 := 3
  w1 := 2
  c2 := 2
  h2 := 2
  w2 := 3
  kh := 2
  kw := 2
  ph := 0
  pw := 1
  vmap := true
  hc1 := by norm_num
  hc2 := by norm_num
  pkh := by norm_num
  pkw := by norm_num
  lph := by norm_num
  lpw := by norm_num
  ph1 := by norm_num
  pw1 := by norm_num
  ph2 := by norm_num
  pw2 := by norm_num
  eh := by norm_num
  ew := by norm_num

/-- the pooling: 2 x 2 x 3 to 2 x 1 x 1 -/
def exPool : PoolDims where
  a := { kernel := (2, 2), stride := (2, 2) }
  c := 2
  h := 2
  w := 3
  h2 := 1
  w2 := 1
  hc := by norm_num
  fits := ⟨by constructor <;> decide, fun y hy z hz y' hy' z' hz' _ _ _ => by omega⟩

/-- the network expression; module objects 0..6, parameters 0..3 -/
noncomputable def exImg : Net [1, 3, 2] (1 * 3 * 2) [1] 1 (0 + (2 * 1 * 2 * 2 + 2) + 0 + 0 + 0 + 0 + (1 * 8 + 1)) :=
  .seq 0 (.snoc (.snoc (.snoc (.snoc (.snoc (.snoc (.nil [1, 3, 2] (1 * 3 * 2) rfl (by norm_num))
    (.conv 1 0 (some 1) exConv))
    (.maxpool 2 exPool))
    (.upsample 3 2 1 1 2 (by norm_num) (by norm_num) (by norm_num) (by norm_num)))
    (.act .relu 4 [2, 2, 2] 8 rfl (by norm_num)))
    (.flatten 5 [2, 2, 2] 8 rfl (by norm_num)))
    (.linear 6 2 (some 3) 8 1 (by norm_num) (by norm_num)))

/-- a state holding it -/
noncomputable def exImgStore : Store ℝ where
  param i := match i with
    | 0 => ⟨[2, 1, 2, 2], fun j => j⟩
    | 1 => ⟨[2], fun _ => 1⟩
    | 2 => ⟨[1, 8], fun j => 1 - j⟩
    | _ => ⟨[1], fun _ => 2⟩
  fmaps i := if i = 0 then some [] else none
  pidx _ := none
  hooks i := if 1 ≤ i ∧ i ≤ 6 then [0] else []

theorem exImg_ok : exImg.Ok exImgStore := by
  refine ⟨by simp only [exImg, Net.ids, Chain.ids]; decide, ?_⟩
  simp [exImg, Net.Wired, Chain.Wired, exImgStore, Net.mod, Linear.mod, Activation.toMod, PureLayer.toMod,
    Conv2d.mod, Upsample.mod, MaxPool2d.mod, Resh.flatten, exConv]

/-- two images -/
noncomputable def exImgInput : Tensor ℝ := ⟨[2, 1, 3, 2], fun i => i⟩

theorem exImgInput_isBatch : IsBatch exImgInput 2 [1, 3, 2] (1 * 3 * 2) (fun b i => (6 * b + i : ℝ)) :=
  ⟨rfl, fun b i => by simp [exImgInput]; ring⟩

end NNJ
