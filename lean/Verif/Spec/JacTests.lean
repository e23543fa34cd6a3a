import Verif.Model.JacTests
import Verif.Spec.Tests
import Verif.Spec.Autograd
import Verif.Spec.Weights

/-!
# The tests of tests/jacobians.py on networks

Torch's autograd on a network (`Net.backward`), packaged as the tests use it.
-/

namespace NNJ
open Tests

/-- sample `b` of a batch, flattened -/
def Tensor.sample {n : Nat} (t : Tensor ℝ) (b : Nat) : Fin n → ℝ := fun i => t.data (b * n + i)

/-- a vector over all parameters as one tensor per parameter, with the shapes the parameters have in `st` -/
def splitParams (st : Store ℝ) (g : Nat → ℝ) : List Nat → Nat → List (Tensor ℝ)
  | [], _ => []
  | i :: is, off => ⟨(st.param i).shape, fun j => g (off + j)⟩ :: splitParams st g is (off + (st.param i).numel)

/-- Torch's autograd on a network.  `vjp` runs the forward pass and needs a vector with the shape of its result. -/
noncomputable def Net.autograd {s s' : List Nat} {n k p : Nat} (N : Net s n s' k p) : Autograd where
  vjp x v := do
    let y ← N.mod.call x
    let w ← Prog.read N.w
    if y.shape = v.shape then
      pure ⟨x.shape, fun i => if h : i % n < n then (N.backward w (x.sample (i / n)) (v.sample (i / n))).1 ⟨i % n, h⟩ else 0⟩
    else Prog.throw .shape
  grads x o := do
    let w ← Prog.read N.w
    let shapes ← Prog.read fun st => st
    pure (splitParams shapes (fun i => if h : i < p then (N.backward w (x.sample 0) fun j => if (j : Nat) = o then 1 else 0).2 ⟨i, h⟩ else 0) N.mod.params 0)

/-- the gradients of the parameters in the list are absent or zero -/
def Tests.Grads.Clean (buf : Grads) (st : Store ℝ) (is : List Nat) : Prop := ∀ i ∈ is, buf i = none ∨ buf i = some (Tensor.zeros (st.param i).shape)

/-- the entry of `jacobian(x, None, "input")` and the one computed by autograd are close, for all samples, outputs and inputs -/
def Net.NearInput {s s' : List Nat} {n k p B : Nat} (N : Net s n s' k p) (st : Store ℝ) (X : Fin B → Fin n → ℝ) : Prop :=
  ∀ b i j, Near (N.sem.J (N.w st) (X b) i j) ((N.backward (N.w st) (X b) (Pi.single i 1)).1 j)

/-- the same for the weights -/
def Net.NearWeight {s s' : List Nat} {n k p B : Nat} (N : Net s n s' k p) (st : Store ℝ) (X : Fin B → Fin n → ℝ) : Prop :=
  ∀ b i j, Near (N.sem.JW (N.w st) (X b) i j) ((N.backward (N.w st) (X b) (Pi.single i 1)).2 j)

namespace Tests

/-- total size of the parameters in the list, repetitions included -/
def totalSize (sh : Nat → List Nat) (is : List Nat) : Nat := (is.map fun i => size (sh i)).sum

/-- entry of the concatenation of the flattened tensors -/
def catAt : List (Tensor ℝ) → Nat → ℝ
  | [], _ => 0
  | g :: gs, j => if j < g.numel then g.data j else catAt gs (j - g.numel)

/-- one call of `test_jacobian_wrt_input_on` or, if `weight`, of `test_jacobian_wrt_weight_on`, in the loops of tests/jacobians.py:167-178, 208-219 -/
structure JacJob where
  {s s' : List Nat}
  {n k p B : Nat}
  net : Net s n s' k p
  x : Tensor ℝ
  X : Fin B → Fin n → ℝ
  weight : Bool

/-- the call.  tests/jacobians.py:145-165, 181-206 -/
noncomputable def JacJob.run (j : JacJob) (buf : Grads) : Prog ℝ Grads :=
  match j.weight with
  | false => do
    jacInput j.net.mod j.net.autograd j.x
    pure buf
  | true => jacWeight j.net.mod j.net.autograd j.x buf

/-- the calls one after the other, `buf` being the attributes `grad` -/
noncomputable def runJac : List JacJob → Grads → Prog ℝ Grads
  | [], buf => pure buf
  | j :: js, buf => do
    let buf ← j.run buf
    runJac js buf

/-- what a call needs; `ps` are the parameters of all networks -/
structure JacJob.Ready (j : JacJob) (st : Store ℝ) (ps : List Nat) : Prop where
  ok : j.net.Ok st
  top : st.hooks j.net.mod.id = []
  pos : 0 < j.B
  batch : IsBatch j.x j.B j.s j.n j.X
  params : j.net.mod.params ⊆ ps
  near : match j.weight with
    | false => j.net.NearInput st j.X
    | true => if j.p = 0 then j.net.FwdW else j.net.mod.params.Nodup ∧ j.net.NearWeight st j.X

end Tests
end NNJ
