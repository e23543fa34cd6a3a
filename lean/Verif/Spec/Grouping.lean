import Verif.Spec.Calls

/-!
# Networks up to the grouping of their layers

`Net.layers N` forgets which layers are grouped in which nested `Sequential`.
-/

namespace NNJ

/-- a layer object, or a SkipConnection around a list of layers -/
inductive Layer where
  | basic (M : AnyNet)
  | skip (inner : List Layer)

mutual
/-- the layers of a network in the order of evaluation -/
def Net.layers : {s s' : List Nat} → {n k p : Nat} → Net s n s' k p → List Layer
  | _, _, _, _, _, .linear id wId bId i o hi ho => [.basic ⟨.linear id wId bId i o hi ho⟩]
  | _, _, _, _, _, .act a id s n hs hn => [.basic ⟨.act a id s n hs hn⟩]
  | _, _, _, _, _, .flatten id s n hs hn => [.basic ⟨.flatten id s n hs hn⟩]
  | _, _, _, _, _, .reshape id s dims n hs hd hn z hz => [.basic ⟨.reshape id s dims n hs hd hn z hz⟩]
  | _, _, _, _, _, .l2norm id eps s n hs hr hn => [.basic ⟨.l2norm id eps s n hs hr hn⟩]
  | _, _, _, _, _, .conv id wId bId g => [.basic ⟨.conv id wId bId g⟩]
  | _, _, _, _, _, .upsample id c h w r hc hh hw hr => [.basic ⟨.upsample id c h w r hc hh hw hr⟩]
  | _, _, _, _, _, .maxpool id g => [.basic ⟨.maxpool id g⟩]
  | _, _, _, _, _, .seq _ c => c.layers
  | _, _, _, _, _, .skip _ _ ch => [.skip ch.layers]
def Chain.layers : {s s' : List Nat} → {n k p l : Nat} → Chain s n s' k p l → List Layer
  | _, _, _, _, _, _, .nil _ _ _ _ => []
  | _, _, _, _, _, _, .snoc c m => c.layers ++ m.layers
end

mutual
/-- the tensors in a nested list, from left to right -/
def PyVal.leaves : PyVal ℝ → List (Tensor ℝ)
  | .none => []
  | .tensor t => [t]
  | .list vs => PyVal.leavesList vs
def PyVal.leavesList : List (PyVal ℝ) → List (Tensor ℝ)
  | [] => []
  | v :: vs => v.leaves ++ PyVal.leavesList vs
end

/-- the call returns a (nested) list of blocks: a full weight-space metric -/
def Call.FullWeight : Call → Prop
  | .jTmjp _ .weight _ false _ => True
  | _ => False

end NNJ
