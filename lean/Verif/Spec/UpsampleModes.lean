import Verif.Spec.Fractional
import Verif.Model.UpsampleModes
import Verif.Spec.Api

/-! # Bilinear interpolation -/

namespace NNJ

/-- the point of the source image, measured in pixels along one side of `h` pixels, that is drawn at position `i` when the side is
enlarged by `num / den`: pixel centres sit at half-integers, points beyond the outermost centres are moved onto them -/
noncomputable def bilPos (num den h i : Nat) : ℝ := min (max 0 ((i + 1 / 2) / (num / den) - 1 / 2)) (h - 1)

/-- the share of pixel `j` in the colour at point `p` -/
noncomputable def tent (p : ℝ) (j : Nat) : ℝ := max 0 (1 - |p - j|)

open Matrix in
/-- the matrix of bilinear interpolation -/
noncomputable def bilJ (num den c h w : Nat) : Matrix (Fin (c * upLen num den h * upLen num den w)) (Fin (c * h * w)) ℝ := fun k m =>
  if chan k = chan m then tent (bilPos num den h (row k)) (row m) * tent (bilPos num den w (col k)) (col m) else 0

end NNJ
