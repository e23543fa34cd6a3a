import Verif.Spec.Api

/-!
# Conv2d with any padding, dilation and number of groups

The stride is 1, because the constructor of `nnj.Conv2d` rejects every other one.
-/

namespace NNJ

/-- Sizes of a Conv2d: `G` groups of `cg` input and `og` output channels, `h1 x w1` pixels to `h2 x w2` pixels, a
`kh x kw` kernel, padding `(ph, pw)`, dilation `(dh, dw)`.  `vmap` is `use_vmap_for_backprop`. -/
structure GConv where
  (G cg og h1 w1 h2 w2 kh kw ph pw dh dw : Nat)
  vmap : Bool
  pG : 0 < G
  pcg : 0 < cg
  pog : 0 < og
  pkh : 0 < kh
  pkw : 0 < kw
  pdh : 0 < dh
  pdw : 0 < dw
  ph1 : 0 < h1
  pw1 : 0 < w1
  ph2 : 0 < h2
  pw2 : 0 < w2
  eh : h2 + dh * (kh - 1) = h1 + 2 * ph
  ew : w2 + dw * (kw - 1) = w1 + 2 * pw

namespace GConv

/-- numbers of input and output channels -/
abbrev c1 (g : GConv) : Nat := g.G * g.cg
abbrev c2 (g : GConv) : Nat := g.G * g.og

/-- the constructor arguments -/
def cfg (g : GConv) (bId : Option Nat) : Conv2d.Cfg where
  inChannels := g.c1
  outChannels := g.c2
  kernel := (g.kh, g.kw)
  padding := (g.ph, g.pw)
  dilation := (g.dh, g.dw)
  groups := g.G
  hasBias := bId.isSome
  useVmap := g.vmap

/-- the module object -/
noncomputable abbrev mod (g : GConv) (id wId : Nat) (bId : Option Nat) : Mod ℝ := Conv2d.mod (g.cfg bId) id wId (bId.getD 0)

/-- the parameters have the shapes given by the constructor -/
structure Params (g : GConv) (wId : Nat) (bId : Option Nat) (st : Store ℝ) : Prop where
  weight : (st.param wId).shape = [g.c2, g.cg, g.kh, g.kw]
  bias : ∀ b ∈ bId, (st.param b).shape = [g.c2]

/-- The weight that output channel `o` puts on input channel `c` at kernel position `(i, j)`: entry
`[o, c % cg, i, j]` of the weight tensor if the channels belong to the same group, else 0. -/
noncomputable def ker (g : GConv) (W : Nat → ℝ) (o c i j : Nat) : ℝ :=
  if c / g.cg = o / g.og then W (((o * g.cg + c % g.cg) * g.kh + i) * g.kw + j) else 0

end GConv
end NNJ
