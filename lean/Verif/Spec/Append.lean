import Verif.Spec.Calls

/-!
# A Sequential whose list of layers has been edited
-/

namespace NNJ

variable {s s' s'' s1 s2 : List Nat} {n k j p q l n1 n2 l1 l2 p1 p2 : Nat}

/-- `m` is a layer of its own (no hook on it, no module object in common with the model); the model is `Sequential(*c)`. -/
structure Appended (id : Nat) (c : Chain s n s' k p (l + 1)) (m : Net s' k s'' j q) (st : Store ℝ) : Prop where
  ok : (Net.seq id c).Ok st
  okm : m.Ok st
  disjoint : ∀ i ∈ m.ids, i ∉ (Net.seq id c).ids
  unhooked : st.hooks m.mod.id = []

/-- The layers are now `c1`, `m`, `c2`; those of `c1` and `c2` have the hooks of the model `id`, the layer `m` has none. -/
structure Replaced (id : Nat) (c1 : Chain s n s1 n1 p1 l1) (m : Net s1 n1 s2 n2 q) (c2 : Chain s2 n2 s' k p2 l2) (st : Store ℝ) : Prop where
  nodup : (id :: (c1.ids ++ (m.ids ++ c2.ids))).Nodup
  attr : (st.fmaps id).isSome
  wired1 : c1.Wired id st
  wiredm : m.Wired st
  wired2 : c2.Wired id st
  unhooked : st.hooks m.mod.id = []

/-- the products whose backward pass starts with the last entry of `feature_maps` -/
def Call.ReadsLast : Call → Prop
  | jacobian _ | vjp _ _ | mjp _ _ | jTmjp _ _ _ _ _ | jmp none _ => True
  | _ => False

end NNJ
