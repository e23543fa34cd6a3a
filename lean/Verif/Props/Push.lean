import Verif.Proofs.Push
import Verif.Props.FwdMode
import Verif.Props.Products

/-!
# C71: `jmjTp` either gives the pushed-forward metric or raises, and for which networks
-/

namespace NNJ.Props
open NNJ Matrix Tensor

variable {s s' : List Nat} {n k p : Nat} {N : Net s n s' k p} {st : Store ℝ}
variable {B : Nat} {X : Fin B → Fin n → ℝ} {x : Tensor ℝ}

/-- With a Conv2d, Upsample or MaxPool2d inside, `jmjTp` wrt the input raises whatever the state and the arguments. -/
theorem C71_input_raises (hf : ¬ N.FwdI) (x : Tensor ℝ) (val : Option (Tensor ℝ)) (m : PyVal ℝ) (fromDiag toDiag db : Bool) :
    (N.mod.jmjTp x val m .input fromDiag toDiag db).Raises :=
  Post.raises ((N.push_post.1 x val m fromDiag toDiag db).mono fun _ h => hf h)

/-- With a Conv2d inside, or a Conv2d, Upsample or MaxPool2d after the first parameter, `jmjTp` wrt the weights raises whatever the state and the arguments. -/
theorem C71_weight_raises (hp : 0 < p) (hf : ¬ N.PushW) (x : Tensor ℝ) (val : Option (Tensor ℝ)) (m : PyVal ℝ) (fromDiag toDiag db : Bool) :
    (N.mod.jmjTp x val m .weight fromDiag toDiag db).Raises :=
  Post.raises ((N.push_post.2 hp x val m fromDiag toDiag db).mono fun _ h => hf h)

/-- With respect to the input: `jmjTp` returns exactly if there is no Conv2d, Upsample or MaxPool2d inside; then it is `J M Jᵀ` or its diagonal, with `J` what
`jacobian` returns. -/
theorem C71_input (h : N.Ok st) (hB : 0 < B) (hx : IsBatch x B s n X) :
    ∃ jt J, Returns (N.mod.jacobian x none .input) st (some jt) ∧ IsMat jt B k n J ∧
      ∀ fromDiag toDiag A Z, MetricArg fromDiag A B n Z →
        (N.FwdI → ∃ t, Returns (N.mod.jmjTp x none (.tensor A) .input fromDiag toDiag false) st (some t) ∧
          MetricOut toDiag t B k fun b => J b * Z b * (J b)ᵀ) ∧
        (¬ N.FwdI → NoReturn (N.mod.jmjTp x none (.tensor A) .input fromDiag toDiag false) st) := by
  obtain ⟨jt, hj, hJ⟩ := h.jacI hB hx
  exact ⟨jt, _, hj, hJ, fun fd td A Z hA => ⟨fun hf => h.jmjI hf hB hx fd td hA, fun hf => C71_input_raises hf _ _ _ _ _ _ st⟩⟩

/-- With respect to the weights, for a network with parameters: `jmjTp` returns exactly if there is no Conv2d inside and no Upsample or MaxPool2d after the
first parameter; then it is `J M' Jᵀ` or its diagonal, with `J` what `jacobian` returns and `M'` the diagonal blocks of `M` that belong to one layer each. -/
theorem C71_weight (h : N.Ok st) (hB : 0 < B) (hx : IsBatch x B s n X) (hp : 0 < p) :
    ∃ jt J, Returns (N.mod.jacobian x none .weight) st (some jt) ∧ IsMat jt B k p J ∧
      ∀ fromDiag toDiag A Z, MetricArg fromDiag A B p Z →
        (N.PushW → ∃ t, Returns (N.mod.jmjTp x none (.tensor A) .weight fromDiag toDiag false) st (some t) ∧
          MetricOut toDiag t B k fun b => J b * N.sem.mask (Z b) * (J b)ᵀ) ∧
        (¬ N.PushW → NoReturn (N.mod.jmjTp x none (.tensor A) .weight fromDiag toDiag false) st) := by
  obtain ⟨jt, hj, hJ⟩ := h.jacW hB hx hp
  exact ⟨jt, _, hj, hJ, fun fd td A Z hA =>
    ⟨fun hf => h.jmjW hf hp hB hx fd td (h.g.arg_of_metric hA), fun hf => C71_weight_raises hp hf _ _ _ _ _ _ st⟩⟩

/-- What supports `jmjTp` wrt the input also supports it wrt the weights. -/
theorem C71_input_weight (hf : N.FwdI) : N.PushW := hf.pushW

/-! ### Example: `Sequential(Tanh(), MaxPool2d(2), Flatten(), Linear(2, 1))` -/

/-- a state holding `poolNet` as its constructor leaves it: every layer has the hook of the Sequential -/
noncomputable def poolHooked : Store ℝ where
  param := fun _ => ⟨[1, 2], fun _ => 1⟩
  fmaps := fun i => if i = 0 then some [] else none
  pidx := fun _ => none
  hooks := fun i => if 1 ≤ i ∧ i ≤ 4 then [0] else []

theorem poolNet_ok : poolNet.Ok poolHooked := by
  refine ⟨by simp only [poolNet, Net.ids, Chain.ids]; decide, ?_⟩
  simp [poolNet, Net.Wired, Chain.Wired, poolHooked, Net.mod, Linear.mod, Activation.toMod, MaxPool2d.mod, Resh.flatten, PureLayer.toMod]

/-- `jmjTp` wrt the weights returns: the pooling layer comes before the first parameter.  `jmjTp` wrt the input raises. -/
example : (∃ t, Returns (poolNet.mod.jmjTp poolX none (.tensor ⟨[1, 2, 2], fun _ => 1⟩) .weight false false false) poolHooked (some t)) ∧
    NoReturn (poolNet.mod.jmjTp poolX none (.tensor ⟨[1, 12, 12], fun _ => 1⟩) .input false false false) poolHooked := by
  constructor
  · obtain ⟨jt, J, -, -, h⟩ := C71_weight poolNet_ok Nat.one_pos poolX_batch (by norm_num)
    obtain ⟨t, ht, -⟩ := (h false false ⟨[1, 2, 2], fun _ => 1⟩ (fun _ _ _ => 1) ⟨rfl, fun _ _ _ => rfl⟩).1
      (by simp [poolNet, Net.PushW, Chain.PushW, Net.FwdI])
    exact ⟨t, ht⟩
  · obtain ⟨jt, J, -, -, h⟩ := C71_input poolNet_ok Nat.one_pos poolX_batch
    exact (h false false ⟨[1, 12, 12], fun _ => 1⟩ (fun _ _ _ => 1) ⟨rfl, fun _ _ _ => rfl⟩).2
      (by simp [poolNet, Net.FwdI, Chain.FwdI])

end NNJ.Props
