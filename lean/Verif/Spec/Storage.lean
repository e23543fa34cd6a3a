import Verif.Model.Storage
import Verif.Spec.Slice

/-! # Uses of networks and vectors, with storages -/

namespace NNJ

/-- What a program can do: write an entry of any storage in place, set the weights of a network from a vector, use a network
otherwise. -/
inductive HeapOp where
  | write (b k : Nat) (a : ℝ)
  | setWeight (N : AnyNet) (v : View)
  | use (N : AnyNet) (e : Event) (he : e.KeepsWeights)

/-- the state after it -/
noncomputable def HeapOp.after : HeapOp → Heap ℝ → Heap ℝ
  | write b k a, h => h.write b k a
  | setWeight N v, h => (h.setWeight N.net.mod v).2
  | use N e _, h => { h with rest := e.after N.net.mod h.store }

/-- the state after several, one after the other -/
noncomputable def runOps : List HeapOp → Heap ℝ → Heap ℝ
  | [], h => h
  | o :: os, h => runOps os (o.after h)

/-- the operation is no `set_weight` on a network that has a parameter in `ps` -/
def HeapOp.Spares (ps : List Nat) : HeapOp → Prop
  | write _ _ _ => True
  | setWeight N _ => ∀ i ∈ ps, i ∉ N.net.mod.params
  | use _ _ _ => True

end NNJ
