import Verif.Spec.Spatial
import Verif.Model.Upsample

/-!
# Upsample with a factor that need not be an integer
-/

namespace NNJ

/-- size of an image side of `h` pixels after enlarging by `num / den`: rounded down -/
def upLen (num den h : Nat) : Nat := h * num / den

/-- the pixel of the source that is copied to position `i`: `i / (num / den)`, rounded down -/
def upPos {num den h : Nat} (hd : 0 < den) (i : Fin (upLen num den h)) : Fin h :=
  ⟨i * den / num, by
    have h1 : (i : Nat) + 1 ≤ h * num / den := i.2
    have h2 : (i + 1) * den ≤ h * num := (Nat.le_div_iff_mul_le hd).mp h1
    have h3 : (i : Nat) * den < h * num := by
      have : ((i : Nat) + 1) * den = i * den + den := by ring
      omega
    exact Nat.div_lt_of_lt_mul (by rw [Nat.mul_comm num h]; exact h3)⟩

/-- the pixel copied to output position `k` by nearest-neighbour enlargement by `num / den` -/
def upSrcQ {num den c h w : Nat} (hd : 0 < den) (k : Fin (c * upLen num den h * upLen num den w)) : Fin (c * h * w) :=
  pix (chan k) (upPos hd (row k)) (upPos hd (col k))

end NNJ
