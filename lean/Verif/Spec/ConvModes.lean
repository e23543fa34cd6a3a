import Verif.Spec.GNet
import Verif.Model.ConvModes

/-!
# Conv2d with `padding_mode`
-/

namespace NNJ
open Matrix

/-- Position `k` of a row of `h` pixels, counted from the first pixel and possibly outside, is filled with pixel `s`: itself inside; outside, for `circular` the
pixel a multiple of `h` away, for `replicate` the nearest one, for `reflect` the mirror image at the first or last pixel. -/
def PadMode.Fills (m : PadMode) (h : Nat) (k s : Int) : Prop :=
  match m with
  | .zeros => s = k
  | .circular => (0 ≤ s ∧ s < h) ∧ (h : Int) ∣ k - s
  | .replicate => (0 ≤ s ∧ s < h) ∧ ∀ j : Int, 0 ≤ j → j < h → |k - s| ≤ |k - j|
  | .reflect => (0 ≤ s ∧ s < h) ∧ (s = k ∨ (k < 0 ∧ s - 0 = 0 - k) ∨ ((h : Int) ≤ k ∧ s - (h - 1) = (h - 1) - k))

namespace GConv
variable (g : GConv)

/-- the module object -/
noncomputable abbrev modeMod (m : PadMode) (id wId : Nat) (bId : Option Nat) : Mod ℝ := Conv2d.modeMod m (g.cfg bId) id wId (bId.getD 0)

/-- does `F.pad` accept the padding?  A reflection stays inside the image, wrapping around goes around at most once. -/
def Accepts (m : PadMode) : Prop :=
  match m with
  | .zeros | .replicate => True
  | .reflect => g.ph < g.h1 ∧ g.pw < g.w1
  | .circular => g.ph ≤ g.h1 ∧ g.pw ≤ g.w1

/-- rows and columns read by the kernel position `(i, j)` for output pixel `(r, s)` -/
def srcR (m : PadMode) (r i : Nat) : Int := m.src g.h1 g.ph (r + i * g.dh)
def srcC (m : PadMode) (s j : Nat) : Int := m.src g.w1 g.pw (s + j * g.dw)

/-- the output without bias -/
noncomputable def modeF (m : PadMode) (W : Nat → ℝ) (x : Fin (g.c1 * g.h1 * g.w1) → ℝ) (k : Fin (g.c2 * g.h2 * g.w2)) : ℝ :=
  ∑ c : Fin g.c1, ∑ i : Fin g.kh, ∑ j : Fin g.kw,
    padAt (fun (u : Fin g.h1) (v : Fin g.w1) => x (pix c u v)) (g.srcR m (row k) i) (g.srcC m (col k) j) * g.ker W (chan k : Fin g.c2) c i j

/-- `∂ y[o, r, s] / ∂ x[c, u, v]`: the sum of the kernel entries `(i, j)` that read pixel `(u, v)` for pixel `(r, s)`, inside or beyond the border -/
noncomputable def modeJ (m : PadMode) (W : Nat → ℝ) : Matrix (Fin (g.c2 * g.h2 * g.w2)) (Fin (g.c1 * g.h1 * g.w1)) ℝ := fun k q =>
  ∑ i : Fin g.kh, ∑ j : Fin g.kw,
    if g.srcR m (row k) i = (row q : Nat) ∧ g.srcC m (col k) j = (col q : Nat) then
      g.ker W (chan k : Fin g.c2) (chan q : Fin g.c1) i j else 0

/-- Kernel position `(i, j)` falls beyond the border of the image for output pixel `(r, s)`. -/
def Beyond (r s i j : Nat) : Prop := ¬ ((g.ph ≤ r + i * g.dh ∧ r + i * g.dh < g.ph + g.h1) ∧ (g.pw ≤ s + j * g.dw ∧ s + j * g.dw < g.pw + g.w1))

instance (r s i j : Nat) : Decidable (g.Beyond r s i j) := inferInstanceAs (Decidable (¬ _))

end GConv
end NNJ
