import Verif.Model.Tests
import Verif.Spec.LogLik

/-!
# The tests of tests/jacobian_products.py on networks

Module structure of a network as the tests see it, the tests that support a network, runs of many tests.
-/

namespace NNJ
open Tests

mutual
/-- the submodules of a network (tests/jacobian_products.py:412-422) -/
def Net.tree : {s s' : List Nat} → {n k p : Nat} → Net s n s' k p → Tree
  | _, _, _, _, _, .linear _ _ bId i o _ _ => .layer (o * i + biasLen bId o)
  | _, _, _, _, _, .act _ _ _ _ _ _ => .layer 0
  | _, _, _, _, _, .flatten _ _ _ _ _ => .layer 0
  | _, _, _, _, _, .reshape _ _ _ _ _ _ _ _ _ => .layer 0
  | _, _, _, _, _, .l2norm _ _ _ _ _ _ _ => .layer 0
  | _, _, _, _, _, .conv _ _ bId g => .layer (g.c2 * g.c1 * g.kh * g.kw + biasLen bId g.c2)
  | _, _, _, _, _, .upsample _ _ _ _ _ _ _ _ _ => .layer 0
  | _, _, _, _, _, .maxpool _ _ => .layer 0
  | _, _, _, _, _, .seq _ c => .container c.trees
  | _, _, _, _, _, .skip _ _ ch => .container ch.trees
/-- the submodules of a Sequential -/
def Chain.trees : {s s' : List Nat} → {n k p l : Nat} → Chain s n s' k p l → List Tree
  | _, _, _, _, _, _, .nil _ _ _ _ => []
  | _, _, _, _, _, _, .snoc c m => c.trees ++ [m.tree]
end

mutual
/-- every Sequential and SkipConnection inside (not counting the network itself) has parameters -/
def Net.NestedFull : {s s' : List Nat} → {n k p : Nat} → Net s n s' k p → Prop
  | _, _, _, _, _, .seq _ c => c.NestedFull
  | _, _, _, _, _, .skip _ _ ch => ch.NestedFull
  | _, _, _, _, _, .linear _ _ _ _ _ _ _ => True
  | _, _, _, _, _, .act _ _ _ _ _ _ => True
  | _, _, _, _, _, .flatten _ _ _ _ _ => True
  | _, _, _, _, _, .reshape _ _ _ _ _ _ _ _ _ => True
  | _, _, _, _, _, .l2norm _ _ _ _ _ _ _ => True
  | _, _, _, _, _, .conv _ _ _ _ => True
  | _, _, _, _, _, .upsample _ _ _ _ _ _ _ _ _ => True
  | _, _, _, _, _, .maxpool _ _ => True
def Chain.NestedFull : {s s' : List Nat} → {n k p l : Nat} → Chain s n s' k p l → Prop
  | _, _, _, _, _, _, .nil _ _ _ _ => True
  | _, _, _, _, _, _, @Chain.snoc _ _ _ _ _ _ _ q _ c m => c.NestedFull ∧ m.NestedFull ∧ (m.Container → 0 < q)
end

/-- the networks a test is for: the backward tests for all, the forward ones for those with forward products; the
full weight-space metrics of `jmjTp` for those whose nested containers have parameters -/
def Tests.Test.For {s s' : List Nat} {n k p : Nat} (N : Net s n s' k p) : Tests.Test → Prop
  | .jvpInput | .jmpInput | .jmjTpInput _ _ => N.FwdI
  | .jvpWeight | .jmpWeight => N.FwdI ∧ N.FwdW
  | .jmjTpWeight fd _ => p = 0 ∨ N.PushW ∧ (fd = false → N.NestedFull)
  | _ => True

/-- draws have the requested shapes -/
def Tests.Draws.Shaped (randn : Draws) : Prop := ∀ i s, (randn i s).shape = s

/-- a network, an input, the draws of `torch.randn`, and the test to run on them -/
structure Tests.Job where
  {s s' : List Nat}
  {n k p B : Nat}
  net : Net s n s' k p
  x : Tensor ℝ
  X : Fin B → Fin n → ℝ
  randn : Draws
  test : Test

/-- run it -/
noncomputable def Tests.Job.run (j : Job) : Prog ℝ Unit := j.test.run j.net.tree j.net.mod j.x j.randn

/-- the network is properly constructed in `st` and not part of another one, the input is a non-empty batch for it, the test is for it -/
structure Tests.Job.Ready (j : Job) (st : Store ℝ) : Prop where
  ok : j.net.Ok st
  top : st.hooks j.net.mod.id = []
  pos : 0 < j.B
  batch : IsBatch j.x j.B j.s j.n j.X
  shaped : j.randn.Shaped
  fits : j.test.For j.net

/-- run all tests in order, on one program state -/
noncomputable def Tests.runAll : List Job → Prog ℝ Unit
  | [] => pure ()
  | j :: js => do
    j.run
    runAll js

/-- `torch.isclose(u, v, atol=1e-4)` on numbers -/
def Tests.Near (u v : ℝ) : Prop := |u - v| ≤ 1 / 10000 + 1 / 100000 * |v|

/-- `t` has shape `[B, n]` and its entries are close to those of `G` -/
def Tests.NearVec (t : Tensor ℝ) (B n : Nat) (G : Fin B → Fin n → ℝ) : Prop := t.shape = [B, n] ∧ ∀ (b : Fin B) (i : Fin n), Near (t.get [b, i]) (G b i)

/-- `t` has shape `[B, m, n]` and its entries are close to those of `G` -/
def Tests.NearMat (t : Tensor ℝ) (B m n : Nat) (G : Fin B → Matrix (Fin m) (Fin n) ℝ) : Prop :=
  t.shape = [B, m, n] ∧ ∀ (b : Fin B) (i : Fin m) (j : Fin n), Near (t.get [b, i, j]) (G b i j)

/-- the same for a metric or its diagonal -/
def Tests.NearMetric (toDiag : Bool) (t : Tensor ℝ) (B k : Nat) (G : Fin B → Matrix (Fin k) (Fin k) ℝ) : Prop :=
  if toDiag then NearVec t B k fun b => Matrix.diag (G b) else NearMat t B k k G

/-- The test passes, leaving the state `st`, if `P`, and raises AssertionError otherwise. -/
def Tests.Verdict (r : Res Unit × Store ℝ) (st : Store ℝ) (P : Prop) : Prop := (P → r = (.ok (), st)) ∧ (¬ P → r = (.error .assertion, st))

end NNJ
