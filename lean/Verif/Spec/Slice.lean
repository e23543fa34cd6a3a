import Verif.Spec.Calls

/-!
# Networks some of whose layers also belong to other Sequentials
-/

namespace NNJ

/-- the state without the Sequentials `F`: neither their hooks nor their feature maps -/
def Store.without (F : List Nat) (st : Store ℝ) : Store ℝ where
  param := st.param
  fmaps i := if i ∈ F then none else st.fmaps i
  pidx := st.pidx
  hooks i := (st.hooks i).filter (· ∉ F)

/-- The network is properly wired, except that Sequentials `F`, which are not part of it, have hooks on some of its modules. -/
structure Net.OkBut {s s' : List Nat} {n k p : Nat} (N : Net s n s' k p) (F : List Nat) (st : Store ℝ) : Prop where
  ok : N.Ok (st.without F)
  outside : ∀ q ∈ F, q ∉ N.ids
  attr : ∀ q ∈ F, (st.fmaps q).isSome

mutual
/-- the objects inside that keep a cache: Sequentials (`feature_maps`) and MaxPool2d layers (`idx`) -/
def Net.stateful : {s s' : List Nat} → {n k p : Nat} → Net s n s' k p → List Nat
  | _, _, _, _, _, .maxpool id _ => [id]
  | _, _, _, _, _, .seq id c => id :: c.stateful
  | _, _, _, _, _, .skip _ fid ch => fid :: ch.stateful
  | _, _, _, _, _, _ => []
def Chain.stateful : {s s' : List Nat} → {n k p l : Nat} → Chain s n s' k p l → List Nat
  | _, _, _, _, _, _, .nil _ _ _ _ => []
  | _, _, _, _, _, _, .snoc c m => c.stateful ++ m.stateful
end

/-- every use but `set_weight` -/
def Event.KeepsWeights : Event → Prop
  | setWeight _ => False
  | _ => True

/-- an object that was just allocated: it has no attribute `feature_maps` and no hook on any module -/
structure Fresh (q : Nat) (st : Store ℝ) : Prop where
  attr : st.fmaps q = none
  hooks : ∀ i, q ∉ st.hooks i

end NNJ
