import Verif.Spec.Api

/-!
# Running the constructors

`Net.build` executes, in Python's evaluation order, the constructor calls of a network expression.
The values torch draws for fresh parameters are not modelled: the parameter tensors are taken from
the state, with the shapes the constructors give them (`Net.Shapes`).
-/

namespace NNJ

mutual
/-- the parameter tensors have the shapes given by the constructors (torch's `nn.Linear.__init__`) -/
def Net.Shapes : {s s' : List Nat} → {n k p : Nat} → Net s n s' k p → Store ℝ → Prop
  | _, _, _, _, _, .linear _ wId bId i o _ _, st =>
    (st.param wId).shape = [o, i] ∧ ∀ b ∈ bId, (st.param b).shape = [o]
  | _, _, _, _, _, .act _ _ _ _ _ _, _ => True
  | _, _, _, _, _, .flatten _ _ _ _ _, _ => True
  | _, _, _, _, _, .reshape _ _ _ _ _ _ _ _ _, _ => True
  | _, _, _, _, _, .l2norm _ _ _ _ _ _ _, _ => True
  | _, _, _, _, _, .conv _ wId bId g, st =>
    (st.param wId).shape = [g.c2, g.c1, g.kh, g.kw] ∧ ∀ b ∈ bId, (st.param b).shape = [g.c2]
  | _, _, _, _, _, .upsample _ _ _ _ _ _ _ _ _, _ => True
  | _, _, _, _, _, .maxpool _ _, _ => True
  | _, _, _, _, _, .seq _ c, st => c.Shapes st
  | _, _, _, _, _, .skip _ _ ch, st => ch.Shapes st
def Chain.Shapes : {s s' : List Nat} → {n k p l : Nat} → Chain s n s' k p l → Store ℝ → Prop
  | _, _, _, _, _, _, .nil _ _ _ _, _ => True
  | _, _, _, _, _, _, .snoc c m, st => c.Shapes st ∧ m.Shapes st
end

mutual
/-- the constructor calls, arguments first: nnj/sequential.py:10-28, nnj/skipconnection.py:10-15 -/
noncomputable def Net.build : {s s' : List Nat} → {n k p : Nat} → Net s n s' k p → Prog ℝ (Mod ℝ)
  | _, _, _, _, _, .linear id wId bId i o _ _ => pure (Linear.mod id wId bId i o)
  | _, _, _, _, _, .act a id _ _ _ _ => pure (Activation.toMod a.layer id)
  | _, _, _, _, _, .flatten id _ _ _ _ => pure (Resh.flatten id)
  | _, _, _, _, _, .reshape id _ _ _ _ _ _ z _ => pure (Resh.reshape z id)
  | _, _, _, _, _, .l2norm id eps _ _ _ _ _ => pure (L2Norm.mod eps id)
  | _, _, _, _, _, .conv id wId bId g => Prog.lift (Conv2d.init (g.cfg bId) id wId (bId.getD 0))
  | _, _, _, _, _, .upsample id _ _ _ r _ _ _ _ => pure (Upsample.mod ⟨r, 1⟩ id)
  | _, _, _, _, _, .maxpool id g => pure (MaxPool2d.mod g.a id)
  | _, _, _, _, _, .seq id c => do
    let ms ← c.build
    Sequential.init id ms
  | _, _, _, _, _, .skip id fid ch => do
    let ms ← ch.build
    SkipConnection.init id fid ms
noncomputable def Chain.build : {s s' : List Nat} → {n k p l : Nat} → Chain s n s' k p l → Prog ℝ (List (Mod ℝ))
  | _, _, _, _, _, _, .nil _ _ _ _ => pure []
  | _, _, _, _, _, _, .snoc c m => do
    let ms ← c.build
    let m ← m.build
    pure (ms ++ [m])
end

end NNJ
