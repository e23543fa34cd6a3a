import Verif.Spec.Api
import Verif.Spec.Build

/-!
# Networks without the wiring the backward passes need

`Net` allows the same object identity at several places (a layer object used more than once).  Here is what is left
of `Net.Wired` when hooks may be missing, repeated, or belong to other containers: the shapes of the parameters (`Net.Shapes`).
-/

namespace NNJ

/-- Every forward hook in the state belongs to a Sequential that has its attribute `feature_maps` (so that
`self.feature_maps.append` in the hook of nnj/sequential.py:25-28 works).  Sequentials create the attribute before
they register their hooks (nnj/sequential.py:20-28), so this holds for whatever has been constructed. -/
def HooksOk (st : Store ℝ) : Prop := ∀ i, ∀ q ∈ st.hooks i, (st.fmaps q).isSome

/-- A network object, possibly with repeated layer objects, in a state in which nothing is known about who listens to whom. -/
structure Net.Loose {s s' : List Nat} {n k p : Nat} (N : Net s n s' k p) (st : Store ℝ) : Prop where
  shapes : N.Shapes st
  hooks : HooksOk st

/-- what a call of one of the methods considered here leaves alone -/
structure Still (st st' : Store ℝ) : Prop where
  param : st'.param = st.param
  hooks : st'.hooks = st.hooks
  some : ∀ i, (st.fmaps i).isSome → (st'.fmaps i).isSome

/-- The parameters moved by `ε` in the direction `D`; a parameter used at several places of a network is moved at all of them. -/
noncomputable def Store.moved (st : Store ℝ) (D : Nat → Nat → ℝ) (ε : ℝ) : Store ℝ :=
  { st with param := fun i => ⟨(st.param i).shape, fun j => (st.param i).data j + ε * D i j⟩ }

/-- the direction itself, as a state, so that `N.w (st.direction D)` is the direction in weight coordinates -/
noncomputable def Store.direction (st : Store ℝ) (D : Nat → Nat → ℝ) : Store ℝ :=
  { st with param := fun i => ⟨(st.param i).shape, D i⟩ }

end NNJ
