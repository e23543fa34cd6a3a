import Verif.Proofs.LeafConv
import Verif.Proofs.Leaf
import Verif.Spec.Net

/-! Conv2d as a layer of a network. -/

namespace NNJ
open Tensor Matrix
namespace Conv2d

/-- the layer object in a state -/
noncomputable def layerOf (g : ConvDims) (wId : Nat) (bId : Option Nat) (s : Store ℝ) : PureLayer ℝ :=
  layer (g.cfg bId) (s.param wId) (if (g.cfg bId).hasBias then some (s.param (bId.getD 0)) else none)

theorem nParams_eq (g : ConvDims) (bId : Option Nat) : (g.cfg bId).nParams = g.c2 * g.c1 * g.kh * g.kw + biasLen bId g.c2 := by
  cases bId <;> simp [Cfg.nParams, Cfg.weightNumel, ConvDims.cfg, biasLen]

theorem mod_eq (g : ConvDims) (bId : Option Nat) (id wId : Nat) :
    mod (g.cfg bId) id wId (bId.getD 0) = PureLayer.toMod (layerOf g wId bId) id (g.c2 * g.c1 * g.kh * g.kw + biasLen bId g.c2)
      (if (g.cfg bId).hasBias then [wId, bId.getD 0] else [wId]) := by
  rw [← nParams_eq]; rfl

theorem init_eq (g : ConvDims) (bId : Option Nat) (id wId b : Nat) :
    (Prog.lift (init (g.cfg bId) id wId b) : Prog ℝ (Mod ℝ)) = Pure.pure (mod (g.cfg bId) id wId b) := by
  rw [init, if_neg (by simp [ConvDims.cfg, Nat.mod_one]), if_neg (by simp [ConvDims.cfg])]
  rfl

theorem fits_dims (g : ConvDims) (bId : Option Nat) : Fits (g.cfg bId) g.h1 g.w1 g.h2 g.w2 g.kh g.kw g.ph g.pw where
  kernel := rfl
  stride := rfl
  padding := rfl
  dilation := rfl
  groups := rfl
  pkh := g.pkh
  pkw := g.pkw
  lph := g.lph
  lpw := g.lpw
  ph1 := g.ph1
  pw1 := g.pw1
  ph2 := g.ph2
  pw2 := g.pw2
  eh := g.eh
  ew := g.ew

theorem leafB_dims (g : ConvDims) {wId : Nat} {bId : Option Nat} {s : Store ℝ}
    (hW : (s.param wId).shape = [g.c2, g.c1, g.kh, g.kw]) (hb : ∀ b ∈ bId, (s.param b).shape = [g.c2]) :
    LeafB (layerOf g wId bId s) [g.c1, g.h1, g.w1] (g.c1 * g.h1 * g.w1) [g.c2, g.h2, g.w2] (g.c2 * g.h2 * g.w2)
      (g.c2 * g.c1 * g.kh * g.kw + biasLen bId g.c2) (convF bId g.c1 g.h1 g.w1 g.c2 g.h2 g.w2 g.kh g.kw g.ph g.pw (convW wId bId g s))
      (fun _ => convJ bId g.c1 g.h1 g.w1 g.c2 g.h2 g.w2 g.kh g.kw g.ph g.pw (convW wId bId g s))
      (fun x => hcat (convJK g.c1 g.h1 g.w1 g.c2 g.h2 g.w2 g.kh g.kw g.ph g.pw x) (convJB bId g.c2 g.h2 g.w2)) := by
  refine leafB_conv (fits_dims g bId) g.hc1 g.hc2 hW (fun k => ?_) ?_ ?_ ?_ (nParams_eq g bId)
  · rw [convW, Fin.append_left]
  · cases bId with
    | none => simp [ConvDims.cfg]
    | some b => intro t ht; simp [ConvDims.cfg] at ht; subst ht; exact hb b rfl
  · cases bId <;> simp [ConvDims.cfg]
  · cases bId with
    | none => simp [ConvDims.cfg]
    | some b =>
      intro t ht o h
      simp [ConvDims.cfg] at ht
      subst ht
      rw [convW]
      refine Eq.trans ?_ (Fin.append_right _ _ _).symm
      rfl

end Conv2d
end NNJ
