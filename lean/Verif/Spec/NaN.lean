import Verif.Model.Activations
import Mathlib.Analysis.SpecialFunctions.Log.Basic

/-!
# Numbers that may be infinite or NaN
-/

namespace NNJ

/-- Rules of NaN and of the infinities in every IEEE 754 format: NaN in, NaN out; a sum with an infinite term is infinite or NaN; a quotient of two
infinite numbers is NaN. -/
class NaNLaws (α : Type) [Add α] [Sub α] [Mul α] [Div α] where
  isNaN : α → Prop
  isInf : α → Prop
  add_l : ∀ {a b : α}, isNaN a → isNaN (a + b)
  add_r : ∀ {a b : α}, isNaN b → isNaN (a + b)
  sub_l : ∀ {a b : α}, isNaN a → isNaN (a - b)
  sub_r : ∀ {a b : α}, isNaN b → isNaN (a - b)
  mul_l : ∀ {a b : α}, isNaN a → isNaN (a * b)
  mul_r : ∀ {a b : α}, isNaN b → isNaN (a * b)
  div_l : ∀ {a b : α}, isNaN a → isNaN (a / b)
  div_r : ∀ {a b : α}, isNaN b → isNaN (a / b)
  inf_add : ∀ {a b : α}, isInf a → isInf (a + b) ∨ isNaN (a + b)
  add_inf : ∀ {a b : α}, isInf b → isInf (a + b) ∨ isNaN (a + b)
  inf_div_inf : ∀ {a b : α}, isInf a → isInf b → isNaN (a / b)

/-- Real numbers up to `M` in absolute value, two infinities and NaN.  Floating point numbers without rounding errors, so that only overflow is left. -/
inductive Fl (M : ℝ) where
  | fin (r : ℝ)
  | inf
  | ninf
  | nan

namespace Fl
variable {M : ℝ}

/-- the result `r` of an operation: an infinity if it is too large -/
noncomputable def round (r : ℝ) : Fl M := open Classical in if |r| ≤ M then fin r else if 0 < r then inf else ninf

/-- an infinity with the sign of `r`; NaN if `r` is 0 -/
noncomputable def signed (r : ℝ) : Fl M := open Classical in if r = 0 then nan else if 0 < r then inf else ninf

noncomputable instance : Zero (Fl M) := ⟨fin 0⟩
noncomputable instance : One (Fl M) := ⟨fin 1⟩
noncomputable instance : NatCast (Fl M) := ⟨fun n => round n⟩

noncomputable instance : Neg (Fl M) := ⟨fun
  | fin a => fin (-a)
  | inf => ninf
  | ninf => inf
  | nan => nan⟩

noncomputable instance : Add (Fl M) := ⟨fun
  | fin a, fin b => round (a + b)
  | nan, _ => nan
  | _, nan => nan
  | inf, ninf => nan
  | ninf, inf => nan
  | inf, _ => inf
  | _, inf => inf
  | ninf, _ => ninf
  | _, ninf => ninf⟩

noncomputable instance : Sub (Fl M) := ⟨fun a b => a + -b⟩

noncomputable instance : Mul (Fl M) := ⟨fun
  | fin a, fin b => round (a * b)
  | nan, _ => nan
  | _, nan => nan
  | inf, inf => inf
  | inf, ninf => ninf
  | ninf, inf => ninf
  | ninf, ninf => inf
  | inf, fin b => signed b
  | fin a, inf => signed a
  | ninf, fin b => signed (-b)
  | fin a, ninf => signed (-a)⟩

/-- zeros have no sign here: a quotient by 0 of a number other than 0 has the sign of the dividend -/
noncomputable instance : Div (Fl M) := ⟨fun
  | fin a, fin b => open Classical in if b = 0 then signed a else round (a / b)
  | nan, _ => nan
  | _, nan => nan
  | inf, fin b => open Classical in if 0 ≤ b then inf else ninf
  | ninf, fin b => open Classical in if 0 ≤ b then ninf else inf
  | fin _, _ => fin 0
  | _, _ => nan⟩

/-- exp overflows to an infinity; the other functions are not used here -/
noncomputable instance : Trans (Fl M) where
  exp
    | fin a => round (Real.exp a)
    | inf => inf
    | ninf => fin 0
    | nan => nan
  log := fun
    | fin a => open Classical in if 0 < a then round (Real.log a) else if a = 0 then ninf else nan
    | inf => inf
    | _ => nan
  tanh _ := nan
  sin _ := nan
  cos _ := nan
  sqrt _ := nan

end Fl
end NNJ
