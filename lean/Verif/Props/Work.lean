import Verif.Proofs.Work

/-!
# C81: the cost of diag_backprop

README.md:19-20: "Moreover we implement an approximate but faster version of these methods that has the same order of complexity
of a standard backpropagation."  Work is counted as described in `Model/Work`.
-/

namespace NNJ
namespace Props
open Work

/-- C81: for every network and batch, `jTmjp` with `diag_backprop=True` costs at least as much as `vjp` and at most twice as
much, with respect to the input and to the weights. -/
theorem C81_same_order (N : Net) (hN : N.Pos) (b : Nat) (hb : 0 < b) :
    (N.vjpI b ≤ N.jTI b ∧ N.jTI b ≤ 2 * N.vjpI b) ∧ (N.vjpW b ≤ N.jTW b ∧ N.jTW b ≤ 2 * N.vjpW b) :=
  ⟨N.boundsI hb hN, N.boundsW hb hN⟩

section Example
-- a small convolutional network with a skip connection; the work itself, for 10 samples
def wkNet : Net := .seq (.cons (.layer (.conv 1 28 28 8 26 26 3 3 true true)) (.cons (.layer (.act .relu 5408))
  (.cons (.layer (.maxpool 8 26 26 13 13)) (.cons (.layer (.view 1352))
    (.cons (.skip 1352 (.cons (.layer (.linear 1352 50 true)) (.cons (.layer (.act .tanh 50)) .nil)))
      (.cons (.layer (.linear 1402 10 true)) .nil))))))

example : wkNet.Pos := by simp [wkNet, Net.Pos, Chain.Pos, Layer.Pos]
example : wkNet.vjpW 10 = 4886180 ∧ wkNet.jTW 10 = 5793560 := by decide
end Example

/-- C81: in forward mode, `jmjTp` with `diag_backprop=True` costs at most twice as much as `jvp`, even if the evaluations of the
layers in `jvp` are not counted; for networks whose layers have a forward mode and inputs with `n` entries. -/
theorem C81_forward (N : Net) (hN : N.Pos) (_hf : N.Fwd) (b n : Nat) :
    N.jmI b n ≤ 2 * N.jvI b n ∧ N.jmW b n ≤ 2 * N.jvW b n :=
  ⟨N.fwdI b n, N.fwdW b hN n⟩

section Example
def wkDense : Net := .seq (.cons (.skip 20 (.cons (.layer (.linear 20 30 true)) (.cons (.layer (.act .tanh 30)) .nil)))
  (.cons (.layer (.l2norm 50)) (.cons (.layer (.linear 50 1 false)) .nil)))

example : wkDense.Pos ∧ wkDense.Fwd := by simp [wkDense, Net.Pos, Chain.Pos, Layer.Pos, Net.Fwd, Chain.Fwd, Layer.Fwd]
example : wkDense.jvW 1 20 = 13575 ∧ wkDense.jmW 1 20 = 16225 := by decide
end Example

/-- C81: without `diag_backprop` the diagonal of a Sequential costs, for each Linear layer but the first, the number of its
inputs times what `vjp` costs in this layer, at least. -/
theorem C81_exact (b : Nat) (pre post : List Layer) (i o : Nat) (bias : Bool) (hp : pre ≠ []) :
    i * (Layer.linear i o bias).vjpI b ≤ exactW b (pre ++ .linear i o bias :: post) true := by
  refine le_trans (le_of_eq ?_) (exact_le b _ pre true i o bias post rfl fun _ => hp)
  simp only [Layer.vjpI, ein_l1]; ring

example : [Layer.act .relu 3] ≠ [] := by simp

/-- C81: so no multiple of the work of `vjp`, or of `jTmjp` with `diag_backprop=True`, is enough for the exact diagonal: two
Linear layers of width `n` need more than `c` times as much as soon as `n ≥ 10 c`, whatever the batch size. -/
theorem C81_gap (c n b : Nat) (hn : 0 < n) (hc : 10 * c ≤ n) (hb : 0 < b) :
    let ls := [Layer.linear n n false, .linear n n false]
    c * (Net.seq (ofList ls)).vjpW b < exactW b ls true ∧ c * (Net.seq (ofList ls)).jTW b < exactW b ls true := by
  intro ls
  have hP : (Net.seq (ofList ls)).Pos := by simp [ls, ofList, Net.Pos, Chain.Pos, Layer.Pos, hn]
  have h1 := (C81_same_order _ hP b hb).2
  have hv : (Net.seq (ofList ls)).vjpW b = 5 * (b * n * n) := by
    simp [ls, ofList, Net.vjpW, Chain.vjpW, Layer.vjpW, Net.vjpI, Layer.vjpI, ein_l1, ein_l2, Chain.params, Net.params, Layer.params]
    ring
  have he : exactW b ls true = b * n * n + b * n * n * n := by
    simp [ls, exactW, Layer.jTIexact, linearJTI, ein_l5]
  have hp : 0 < b * n * n := Nat.mul_pos (Nat.mul_pos hb hn) hn
  have h2 : 10 * c * (b * n * n) ≤ b * n * n * n := by
    rw [Nat.mul_comm (b * n * n) n]; exact Nat.mul_le_mul_right _ hc
  have h3 : c * (Net.seq (ofList ls)).jTW b ≤ c * (2 * (Net.seq (ofList ls)).vjpW b) := Nat.mul_le_mul_left _ h1.2
  have h4 : c * (2 * (Net.seq (ofList ls)).vjpW b) = 10 * c * (b * n * n) := by rw [hv]; ring
  have h5 : c * (Net.seq (ofList ls)).vjpW b ≤ c * (2 * (Net.seq (ofList ls)).vjpW b) := Nat.mul_le_mul_left _ (by omega)
  rw [he]
  omega

example : 10 * 100 ≤ 1000 := by decide

/-- C81: L2Norm has no products of its own and goes through its Jacobian: to build it costs at least `3n` times the size of the
input, for samples with `n` entries, and the product in `vjp` another `n` times. -/
theorem C81_l2norm (b n : Nat) : 3 * n * (b * n) ≤ l2jac b n ∧ 4 * n * (b * n) ≤ (Layer.l2norm n).vjpI b := by
  simp only [Layer.vjpI, l2jac, ein_d2, ein_d4, ein_d5]
  have h1 : 3 * n * (b * n) = 3 * (b * n * n) := by ring
  have h2 : 4 * n * (b * n) = 4 * (b * n * n) := by ring
  omega

example : (Layer.l2norm 100).vjpI 1 = 50304 := by decide

end Props
end NNJ
