import Verif.Spec.Calls

/-!
# Vocabulary for feature maps and hooks
-/

namespace NNJ

/-- `forward` reads only the parameters and changes nothing. -/
def Mod.Stateless {α : Type} (m : Mod α) : Prop :=
  ∀ x s s', s.param = s'.param → m.forward x s = ((m.forward x s').1, s)

/-- `vs` are the outputs of the layers `ms`, applied one after the other starting from `x`. -/
def Outputs {α : Type} (st : Store α) : List (Mod α) → Tensor α → List (Tensor α) → Prop
  | [], _, vs => vs = []
  | m :: ms, x, vs => ∃ v ws, vs = v :: ws ∧ (m.forward x st).1 = .ok v ∧ Outputs st ms v ws

/-- no module has a forward hook that writes to the feature maps of `id` -/
def NoHookOf (id : Nat) (st : Store ℝ) : Prop := ∀ j, id ∉ st.hooks j

/-- `id` has no attribute `feature_maps`, and no module has a hook that writes to it -/
structure Unhooked (id : Nat) (st : Store ℝ) : Prop where
  attr : st.fmaps id = none
  hooks : NoHookOf id st

/-- `forward`, `jvp`, and `jmp` with a matrix -/
def Call.ForwardMode : Call → Prop
  | forward | jvp _ _ | jmp (some _) _ => True
  | _ => False

/-- the calls that need the feature maps of a Sequential: `jacobian`, `vjp`, `mjp`, `jTmjp`, `jmp` with `matrix=None`, and
`jmjTp` wrt input -/
def Call.NeedsMaps : Call → Prop
  | jacobian _ | vjp _ _ | mjp _ _ | jTmjp _ _ _ _ _ | jmp none _ | jmjTp _ .input _ _ _ => True
  | _ => False

/-- arguments that pass the assertions at the start of the methods of Sequential -/
def Call.PassesAsserts : Call → Prop
  | jacobian w | vjp _ w | mjp _ w | jvp _ w | jmp _ w => w = .input ∨ w = .weight
  | jTmjp _ _ fd td db | jmjTp _ _ fd td db => db → fd ∧ td
  | forward => True

/-- The results (values or exceptions) of calls made one after the other. -/
def results (m : Mod ℝ) : List (Tensor ℝ × Option (Tensor ℝ) × Call) → Store ℝ → List (Res (PyVal ℝ))
  | [], _ => []
  | (x, val, c) :: cs, st => (c.run m x val st).1 :: results m cs (c.run m x val st).2

end NNJ
