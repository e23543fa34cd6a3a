import Verif.Spec.UNet
import Verif.Spec.Build
import Verif.Spec.Weights
import Verif.Spec.NoneMatrix

/-!
# The network of the notebook is well-formed
-/

namespace NNJ
namespace UNet

theorem castK_ids {s s' : List Nat} {n k k' p : Nat} (e : k = k') (N : Net s n s' k p) : (castK e N).ids = N.ids := by subst e; rfl
theorem castK_paramIds {s s' : List Nat} {n k k' p : Nat} (e : k = k') (N : Net s n s' k p) : (castK e N).paramIds = N.paramIds := by
  subst e; rfl
theorem castK_shapes {s s' : List Nat} {n k k' p : Nat} (e : k = k') (N : Net s n s' k p) (st : Store ℝ) : (castK e N).Shapes st = N.Shapes st := by
  subst e; rfl

section
variable {h w : Nat} {s : List Nat} {n p l : Nat} (hh : 0 < h) (hw : 0 < w)

theorem two_ids (i c1 c2 c3 : Nat) (ch : Chain s n [c1, h, w] (c1 * h * w) p l) (h1 : 0 < c1) (h2 : 0 < c2) (h3 : 0 < c3) :
    (two hh hw i c1 c2 c3 ch h1 h2 h3).ids = ch.ids ++ [i, i + 1, i + 2, i + 3] := by
  simp [two, conv3, tanh, Net.ids, Chain.ids]

theorem two_paramIds (i c1 c2 c3 : Nat) (ch : Chain s n [c1, h, w] (c1 * h * w) p l) (h1 : 0 < c1) (h2 : 0 < c2) (h3 : 0 < c3) :
    (two hh hw i c1 c2 c3 ch h1 h2 h3).paramIds = ch.paramIds ++ [2 * i, 2 * i + 1, 2 * (i + 2), 2 * (i + 2) + 1] := by
  simp [two, conv3, tanh, Net.paramIds, Chain.paramIds]

theorem two_shapes (i c1 c2 c3 : Nat) (ch : Chain s n [c1, h, w] (c1 * h * w) p l) (h1 : 0 < c1) (h2 : 0 < c2) (h3 : 0 < c3) {st : Store ℝ}
    (hc : ch.Shapes st) (e1 : (st.param (2 * i)).shape = [c2, c1, 3, 3]) (e2 : (st.param (2 * i + 1)).shape = [c2])
    (e3 : (st.param (2 * (i + 2))).shape = [c3, c2, 3, 3]) (e4 : (st.param (2 * (i + 2) + 1)).shape = [c3]) :
    (two hh hw i c1 c2 c3 ch h1 h2 h3).Shapes st := by
  simp [two, conv3, tanh, Net.Shapes, Chain.Shapes, dims3, hc, e1, e2, e3, e4]

variable {c d : Nat} (i : Nat) (ch : Chain [c, h, w] (c * h * w) [d, h, w] (d * h * w) p (l + 1))

theorem skip_ids : (skip i ch).ids = i :: (i + 1) :: ch.ids := by rw [skip, castK_ids, Net.ids]
theorem skip_paramIds : (skip i ch).paramIds = ch.paramIds := by rw [skip, castK_paramIds, Net.paramIds]
theorem skip_shapes {st : Store ℝ} (hc : ch.Shapes st) : (skip i ch).Shapes st := by rw [skip, castK_shapes, Net.Shapes]; exact hc
end

section
variable {s s' s'' : List Nat} {n k j p q l : Nat} (ch : Chain s n s' k p l) (m : Net s' k s'' j q)
theorem snoc_ids : (Chain.snoc ch m).ids = ch.ids ++ m.ids := by rw [Chain.ids]
theorem snoc_paramIds : (Chain.snoc ch m).paramIds = ch.paramIds ++ m.paramIds := by rw [Chain.paramIds]
theorem snoc_shapes {st : Store ℝ} (h1 : ch.Shapes st) (h2 : m.Shapes st) : (Chain.snoc ch m).Shapes st := by rw [Chain.Shapes]; exact ⟨h1, h2⟩
end

variable (h w : Nat) (hh : 0 < h) (hw : 0 < w)

theorem maxpool_nil (i : Nat) (g : PoolDims) : (Net.maxpool i g).ids = [i] ∧ (Net.maxpool i g).paramIds = [] ∧ ∀ st, (Net.maxpool i g).Shapes st := by
  simp [Net.ids, Net.paramIds, Net.Shapes]
theorem conv_nil (i a : Nat) (b : Option Nat) (g : ConvDims) :
    (Net.conv i a b g).ids = [i] ∧ (Net.conv i a b g).paramIds = a :: b.toList ∧
      ∀ st, (st.param a).shape = [g.c2, g.c1, g.kh, g.kw] → (∀ q ∈ b, (st.param q).shape = [g.c2]) → (Net.conv i a b g).Shapes st := by
  simp only [Net.ids, Net.paramIds, Net.Shapes]
  exact ⟨trivial, trivial, fun _ h1 h2 => ⟨h1, h2⟩⟩

theorem pool_ids (i c : Nat) (hc : 0 < c) : (pool h w hh hw i c hc).ids = [i] := (maxpool_nil i _).1
theorem up_ids (i c : Nat) (hc : 0 < c) : (up h w hh hw i c hc).ids = [i] := by rw [up, Net.ids]
theorem start_ids (c : Nat) (hc : 0 < c) : (start h w hh hw c hc).ids = [] := by rw [start, Chain.ids]
theorem conv1_ids (i c d : Nat) (hc : 0 < c) (hd : 0 < d) : (conv1 h w hh hw i c d hc hd).ids = [i] := (conv_nil i _ _ _).1

theorem pool_paramIds (i c : Nat) (hc : 0 < c) : (pool h w hh hw i c hc).paramIds = [] := (maxpool_nil i _).2.1
theorem up_paramIds (i c : Nat) (hc : 0 < c) : (up h w hh hw i c hc).paramIds = [] := by rw [up, Net.paramIds]
theorem start_paramIds (c : Nat) (hc : 0 < c) : (start h w hh hw c hc).paramIds = [] := by rw [start, Chain.paramIds]
theorem conv1_paramIds (i c d : Nat) (hc : 0 < c) (hd : 0 < d) : (conv1 h w hh hw i c d hc hd).paramIds = [2 * i, 2 * i + 1] := (conv_nil i _ _ _).2.1

theorem pool_shapes (i c : Nat) (hc : 0 < c) (st : Store ℝ) : (pool h w hh hw i c hc).Shapes st := (maxpool_nil i _).2.2 st
theorem up_shapes (i c : Nat) (hc : 0 < c) (st : Store ℝ) : (up h w hh hw i c hc).Shapes st := by rw [up, Net.Shapes]; trivial
theorem start_shapes (c : Nat) (hc : 0 < c) (st : Store ℝ) : (start h w hh hw c hc).Shapes st := by rw [start, Chain.Shapes]; trivial
theorem conv1_shapes (i c d : Nat) (hc : 0 < c) (hd : 0 < d) {st : Store ℝ} (e1 : (st.param (2 * i)).shape = [d, c, 1, 1])
    (e2 : (st.param (2 * i + 1)).shape = [d]) : (conv1 h w hh hw i c d hc hd).Shapes st :=
  (conv_nil i _ _ _).2.2 st e1 fun q hq => by cases hq; exact e2

theorem level4_ids : (level4 h w hh hw).ids = [70, 71, 72, 73, 74, 75, 76, 77] := by
  unfold level4
  refine (skip_ids _ _).trans ?_
  rw [snoc_ids, two_ids, snoc_ids, start_ids, pool_ids, up_ids]
  rfl

theorem level3_ids : (level3 h w hh hw).ids =
    [50, 51, 52, 53, 54, 55, 56, 70, 71, 72, 73, 74, 75, 76, 77, 57, 58, 59, 60, 61] := by
  unfold level3
  refine (skip_ids _ _).trans ?_
  rw [snoc_ids, two_ids, snoc_ids, two_ids, snoc_ids, start_ids, pool_ids, up_ids, level4_ids]
  rfl

theorem level2_ids : (level2 h w hh hw).ids =
    [30, 31, 32, 33, 34, 35, 36, 50, 51, 52, 53, 54, 55, 56, 70, 71, 72, 73, 74, 75, 76, 77, 57, 58, 59, 60, 61, 37, 38, 39, 40, 41] := by
  unfold level2
  refine (skip_ids _ _).trans ?_
  rw [snoc_ids, two_ids, snoc_ids, two_ids, snoc_ids, start_ids, pool_ids, up_ids, level3_ids]
  rfl

theorem level1_ids : (level1 h w hh hw).ids =
    [10, 11, 12, 13, 14, 15, 16, 30, 31, 32, 33, 34, 35, 36, 50, 51, 52, 53, 54, 55, 56, 70, 71, 72, 73, 74, 75, 76, 77, 57, 58, 59, 60, 61, 37, 38, 39, 40, 41, 17, 18, 19, 20, 21] := by
  unfold level1
  refine (skip_ids _ _).trans ?_
  rw [snoc_ids, two_ids, snoc_ids, two_ids, snoc_ids, start_ids, pool_ids, up_ids, level2_ids]
  rfl

theorem unet_ids : (unet h w hh hw).ids =
    [0, 1, 2, 3, 4, 10, 11, 12, 13, 14, 15, 16, 30, 31, 32, 33, 34, 35, 36, 50, 51, 52, 53, 54, 55, 56, 70, 71, 72, 73, 74, 75, 76, 77, 57, 58, 59, 60, 61, 37, 38, 39, 40, 41, 17, 18, 19, 20, 21, 5, 6, 7, 8, 9] := by
  unfold unet
  rw [Net.ids, snoc_ids, two_ids, snoc_ids, two_ids, start_ids, level1_ids, conv1_ids]
  rfl

theorem level4_paramIds : (level4 h w hh hw).paramIds = [146, 147, 150, 151] := by
  unfold level4
  refine (skip_paramIds _ _).trans ?_
  rw [snoc_paramIds, two_paramIds, snoc_paramIds, start_paramIds, pool_paramIds, up_paramIds]
  rfl

theorem level3_paramIds : (level3 h w hh hw).paramIds =
    [106, 107, 110, 111, 146, 147, 150, 151, 114, 115, 118, 119] := by
  unfold level3
  refine (skip_paramIds _ _).trans ?_
  rw [snoc_paramIds, two_paramIds, snoc_paramIds, two_paramIds, snoc_paramIds, start_paramIds, pool_paramIds, up_paramIds, level4_paramIds]
  rfl

theorem level2_paramIds : (level2 h w hh hw).paramIds =
    [66, 67, 70, 71, 106, 107, 110, 111, 146, 147, 150, 151, 114, 115, 118, 119, 74, 75, 78, 79] := by
  unfold level2
  refine (skip_paramIds _ _).trans ?_
  rw [snoc_paramIds, two_paramIds, snoc_paramIds, two_paramIds, snoc_paramIds, start_paramIds, pool_paramIds, up_paramIds, level3_paramIds]
  rfl

theorem level1_paramIds : (level1 h w hh hw).paramIds =
    [26, 27, 30, 31, 66, 67, 70, 71, 106, 107, 110, 111, 146, 147, 150, 151, 114, 115, 118, 119, 74, 75, 78, 79, 34, 35, 38, 39] := by
  unfold level1
  refine (skip_paramIds _ _).trans ?_
  rw [snoc_paramIds, two_paramIds, snoc_paramIds, two_paramIds, snoc_paramIds, start_paramIds, pool_paramIds, up_paramIds, level2_paramIds]
  rfl

theorem unet_paramIds : (unet h w hh hw).paramIds =
    [2, 3, 6, 7, 26, 27, 30, 31, 66, 67, 70, 71, 106, 107, 110, 111, 146, 147, 150, 151, 114, 115, 118, 119, 74, 75, 78, 79, 34, 35, 38, 39, 10, 11, 14, 15, 18, 19] := by
  unfold unet
  rw [Net.paramIds, snoc_paramIds, two_paramIds, snoc_paramIds, two_paramIds, start_paramIds, level1_paramIds, conv1_paramIds]
  rfl

/-- output and input channels and kernel size of the convolution with this id -/
def shapeOf : Nat → Nat × Nat × Nat
  | 1 => (64, 1, 3) | 3 => (64, 64, 3) | 13 => (128, 64, 3) | 15 => (128, 128, 3) | 33 => (256, 128, 3) | 35 => (256, 256, 3)
  | 53 => (512, 256, 3) | 55 => (512, 512, 3) | 73 => (1024, 512, 3) | 75 => (512, 1024, 3) | 57 => (512, 1024, 3) | 59 => (256, 512, 3)
  | 37 => (256, 512, 3) | 39 => (128, 256, 3) | 17 => (128, 256, 3) | 19 => (64, 128, 3) | 5 => (64, 128, 3) | 7 => (64, 64, 3) | _ => (1, 64, 1)

/-- a state with some parameters, before the constructors run -/
noncomputable def unetStore : Store ℝ where
  param i := match shapeOf (i / 2) with
    | (o, c, q) => ⟨if i % 2 = 0 then [o, c, q, q] else [o], fun j => 1 / (j + 1)⟩
  fmaps _ := none
  pidx _ := none
  hooks _ := []

theorem level4_shapes : (level4 h w hh hw).Shapes unetStore :=
  skip_shapes _ _ (snoc_shapes _ _ (two_shapes hh hw 73 512 1024 512 _ _ _ _ (snoc_shapes _ _ (start_shapes _ _ _ _ _ _ _) (pool_shapes _ _ _ _ _ _ _ _))
    rfl rfl rfl rfl) (up_shapes _ _ _ _ _ _ _ _))

theorem level3_shapes : (level3 h w hh hw).Shapes unetStore :=
  skip_shapes _ _ (snoc_shapes _ _ (two_shapes _ _ 57 1024 512 256 _ _ _ _ (snoc_shapes _ _ (two_shapes _ _ 53 256 512 512 _ _ _ _
    (snoc_shapes _ _ (start_shapes _ _ _ _ _ _ _) (pool_shapes _ _ _ _ _ _ _ _)) rfl rfl rfl rfl) (level4_shapes h w hh hw)) rfl rfl rfl rfl)
    (up_shapes _ _ _ _ _ _ _ _))

theorem level2_shapes : (level2 h w hh hw).Shapes unetStore :=
  skip_shapes _ _ (snoc_shapes _ _ (two_shapes _ _ 37 512 256 128 _ _ _ _ (snoc_shapes _ _ (two_shapes _ _ 33 128 256 256 _ _ _ _
    (snoc_shapes _ _ (start_shapes _ _ _ _ _ _ _) (pool_shapes _ _ _ _ _ _ _ _)) rfl rfl rfl rfl) (level3_shapes h w hh hw)) rfl rfl rfl rfl)
    (up_shapes _ _ _ _ _ _ _ _))

theorem level1_shapes : (level1 h w hh hw).Shapes unetStore :=
  skip_shapes _ _ (snoc_shapes _ _ (two_shapes _ _ 17 256 128 64 _ _ _ _ (snoc_shapes _ _ (two_shapes _ _ 13 64 128 128 _ _ _ _
    (snoc_shapes _ _ (start_shapes _ _ _ _ _ _ _) (pool_shapes _ _ _ _ _ _ _ _)) rfl rfl rfl rfl) (level2_shapes h w hh hw)) rfl rfl rfl rfl)
    (up_shapes _ _ _ _ _ _ _ _))

theorem unet_shapes : (unet h w hh hw).Shapes unetStore := by
  unfold unet
  rw [Net.Shapes]
  exact snoc_shapes _ _ (two_shapes _ _ 5 128 64 64 _ _ _ _ (snoc_shapes _ _ (two_shapes _ _ 1 1 64 64 _ _ _ _ (start_shapes _ _ _ _ _ _ _)
    rfl rfl rfl rfl) (level1_shapes h w hh hw)) rfl rfl rfl rfl) (conv1_shapes _ _ _ _ _ _ _ _ _ rfl rfl)

theorem unet_noneIsIdentity : (unet h w hh hw).NoneIsIdentity true := by
  unfold unet
  trivial

end UNet
end NNJ
