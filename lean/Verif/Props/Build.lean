import Verif.Proofs.Build
import Verif.Proofs.NetFacts
import Verif.Spec.Example

/-!
# C42: the constructors produce properly wired networks
-/

namespace NNJ
namespace Props

variable {s s' : List Nat} {n k p : Nat}

/-- C42: running the constructors of a network expression whose module objects are pairwise distinct and
new (no hook registered on them) returns the network object, in a state where it is properly
wired; parameters are not touched, nor are attributes and hooks of other objects. -/
theorem C42_build (N : Net s n s' k p) {st : Store ℝ} (hnd : N.ids.Nodup) (hs : N.Shapes st)
    (hfresh : ∀ i ∈ N.ids, st.hooks i = []) :
    ∃ st', N.build st = (.ok N.mod, st') ∧ N.Ok st' ∧ st'.param = st.param ∧
      ∀ i, i ∉ N.ids → st'.fmaps i = st.fmaps i ∧ st'.hooks i = st.hooks i := by
  obtain ⟨m, st', h, rfl, hw, _, hb⟩ := N.build_run hnd hs hfresh
  exact ⟨st', h, ⟨hnd, hw⟩, hb.param, hb.frame⟩

/-- a state without any hook meets the hypotheses for the example network -/
example : ∃ st', exNet.build { exStore with hooks := fun _ => [] } = (.ok exNet.mod, st') ∧ exNet.Ok st' := by
  obtain ⟨st', h, hok, _⟩ := C42_build exNet (st := { exStore with hooks := fun _ => [] }) exNet_ok.nodup
    (by simp [exNet, Net.Shapes, Chain.Shapes, exStore]) (fun _ _ => rfl)
  exact ⟨st', h, hok⟩

end Props
end NNJ
