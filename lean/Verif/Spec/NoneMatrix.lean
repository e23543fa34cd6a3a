import Verif.Spec.Net

/-!
# Where `matrix=None` stands for the identity
-/

namespace NNJ

/-- The modules on which `jTmjp(x, None, None, to_diag=td)` is documented here to mean the identity
metric: all but L2Norm, Conv2d with `to_diag=False`, and SkipConnections on samples with more than
one dimension.  (It does not matter what is nested inside.) -/
def Net.NoneIsIdentity {s s' : List Nat} {n k p : Nat} (td : Bool) : Net s n s' k p → Prop
  | .l2norm _ _ _ _ _ _ _ => False
  | .conv _ _ _ _ => td = true
  | .skip (r := r) _ _ _ => r = []
  | _ => True

/-- Flatten, Reshape and L2Norm: the modules whose `mjp`/`jmp` do not accept None. -/
def Net.NoneRaises {s s' : List Nat} {n k p : Nat} : Net s n s' k p → Prop
  | .flatten _ _ _ _ _ => True
  | .reshape _ _ _ _ _ _ _ _ _ => True
  | .l2norm _ _ _ _ _ _ _ => True
  | _ => False

/-- The modules on which `jmjTp(x, None, None, wrt="input")` means the identity metric: Linear,
elementwise layers, Flatten, Reshape and Sequentials on vectors. -/
def Net.NoneIsIdentityFwd {s s' : List Nat} {n k p : Nat} : Net s n s' k p → Prop
  | .linear _ _ _ _ _ _ _ => True
  | .act _ _ _ _ _ _ => True
  | .flatten _ _ _ _ _ => True
  | .reshape _ _ _ _ _ _ _ _ _ => True
  | .seq (s := s) _ _ => s.length = 1
  | _ => False

end NNJ
