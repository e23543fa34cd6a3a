import Verif.Proofs.Autograd
import Verif.Proofs.NetFacts
import Verif.Proofs.DerivAct
import Verif.Spec.Example
import Verif.Props.History

/-!
# C56: agreement with torch's autograd

The oracle of the tests in /repo/tests is torch's autograd.  Away from Softplus units above their threshold and from L2Norm, `vjp`, `mjp` and
`jacobian` return what autograd computes at *every* input: also at the kinks of ReLU, at ties in the windows of MaxPool2d, where TruncExp
is clamped.
-/

namespace NNJ
namespace Props
open Matrix

variable {s s' : List Nat} {n k p : Nat} {N : Net s n s' k p} {st : Store ℝ}
variable {B : Nat} {X : Fin B → Fin n → ℝ} {x : Tensor ℝ}

/-- C56: `vjp(x, None, u, "input")` and `vjp(x, None, u, "weight")` are the gradients that autograd computes for each sample.  (For the
parameters autograd returns the sum over the batch of these rows.) -/
theorem C56_vjp (h : N.Ok st) (hB : 0 < B) (hx : IsBatch x B s n X) (hu : ∀ b, N.Unsaturated (N.w st) (X b)) {u : Tensor ℝ} {U} (hU : IsVec u B k U) :
    (∃ t, Returns (N.mod.vjp x none u .input) st (some t) ∧ IsVec t B n fun b => (N.backward (N.w st) (X b) (U b)).1) ∧
    (0 < p → ∃ t, Returns (N.mod.vjp x none u .weight) st (some t) ∧ IsVec t B p fun b => (N.backward (N.w st) (X b) (U b)).2) := by
  have e : ∀ b, N.backward (N.w st) (X b) (U b) = _ := fun b => N.backward_eq _ _ _ (hu b)
  simp only [e]
  exact ⟨h.vjpI hB hx hU, (h.vjpW hB hx hU).1⟩

/-- C56: the rows of `mjp(x, None, A, wrt)` are the gradients for the rows of `A`. -/
theorem C56_mjp (h : N.Ok st) (hB : 0 < B) (hx : IsBatch x B s n X) (hu : ∀ b, N.Unsaturated (N.w st) (X b)) {r : Nat} (hr : 0 < r) {A : Tensor ℝ} {Z}
    (hA : IsMat A B r k Z) :
    (∃ t, Returns (N.mod.mjp x none (some A) .input) st (some t) ∧ IsMat t B r n fun b i => (N.backward (N.w st) (X b) (Z b i)).1) ∧
    (0 < p → ∃ t, Returns (N.mod.mjp x none (some A) .weight) st (some t) ∧ IsMat t B r p fun b i => (N.backward (N.w st) (X b) (Z b i)).2) := by
  have e : ∀ b i, N.backward (N.w st) (X b) (Z b i) = _ := fun b i => N.backward_eq _ _ _ (hu b)
  simp only [e]
  exact ⟨h.mjpI hB hx hr hA, (h.mjpW hB hx hr hA).1⟩

/-- C56: row `i` of `jacobian(x, None, wrt)` is the gradient of output `i`: `torch.autograd.functional.jacobian`, sample by sample. -/
theorem C56_jacobian (h : N.Ok st) (hB : 0 < B) (hx : IsBatch x B s n X) (hu : ∀ b, N.Unsaturated (N.w st) (X b)) :
    (∃ t, Returns (N.mod.jacobian x none .input) st (some t) ∧ IsMat t B k n fun b i => (N.backward (N.w st) (X b) (Pi.single i 1)).1) ∧
    (0 < p → ∃ t, Returns (N.mod.jacobian x none .weight) st (some t) ∧ IsMat t B k p fun b i => (N.backward (N.w st) (X b) (Pi.single i 1)).2) := by
  have e : ∀ b i, N.backward (N.w st) (X b) (Pi.single i 1) = _ := fun b i => N.backward_eq _ _ _ (hu b)
  simp only [e, Matrix.single_one_vecMul]
  exact ⟨h.jacI hB hx, h.jacW hB hx⟩

/-- C56: for a Softplus layer the two agree exactly when no unit with a gradient is above its threshold. -/
theorem C56_softplus (beta thr : ℝ) (id : Nat) (hs : size s = n) (hn : 0 < n) (hB : 0 < B) (hx : IsBatch x B s n X) {u : Tensor ℝ} {U} (hU : IsVec u B n U) :
    (∃ t, Returns ((Net.act (.softplus beta thr) id s n hs hn).mod.vjp x none u .input) st (some t) ∧
      IsVec t B n fun b => ((Net.act (.softplus beta thr) id s n hs hn).backward (fun _ => 0) (X b) (U b)).1) ↔
    ∀ b i, U b i = 0 ∨ X b i * beta ≤ thr := by
  obtain ⟨t, ht, hT⟩ := (actNet_ok (.softplus beta thr) id hs hn st).vjpI hB hx hU
  have e : ∀ b i, (U b ᵥ* (Net.act (.softplus beta thr) id s n hs hn).J st (X b)) i = U b i * (Act.softplus beta thr).deriv (X b i) := fun b i =>
    vecMul_diag (U b) (fun i => (Act.softplus beta thr).deriv (X b i)) i
  constructor
  · rintro ⟨t', ht', hT'⟩ b i
    obtain rfl : t = t' := by simpa using ht.symm.trans ht'
    have := (e b i).symm.trans ((hT.2 b i).symm.trans (hT'.2 b i))
    simp only [Net.backward] at this
    by_contra hc
    push Not at hc
    have h1 := mul_left_cancel₀ hc.1 this
    have h2 := softplus_gap hc.2
    simp only [Act.backward, if_pos hc.2] at h1
    rw [h1] at h2
    linarith [h2.1, h2.2.1]
  · intro hc
    refine ⟨t, ht, hT.congr fun b i => ?_⟩
    rw [e]
    simp only [Net.backward]
    rcases hc b i with h0 | h0
    · rw [h0, zero_mul, zero_mul]
    · rw [Act.backward_eq (.softplus beta thr) (X b i) h0]

/-- C56: for L2Norm they agree exactly on samples whose incoming gradient is orthogonal to the sample (so at 0), or with eps = 0. -/
theorem C56_l2norm (eps : ℝ) (id : Nat) (hs : size s = n) (hl : s.length ≤ 8) (hn : 0 < n) (hB : 0 < B) (hx : IsBatch x B s n X)
    (he : ∀ b, norm2 (X b) + eps ≠ 0) {u : Tensor ℝ} {U} (hU : IsVec u B n U) :
    (∃ t, Returns ((Net.l2norm id eps s n hs hl hn).mod.vjp x none u .input) st (some t) ∧
      IsVec t B n fun b => ((Net.l2norm id eps s n hs hl hn).backward (fun _ => 0) (X b) (U b)).1) ↔
    ∀ b, eps = 0 ∨ ∑ i, U b i * X b i = 0 := by
  obtain ⟨t, ht, hT⟩ := (l2Net_ok eps id hs hl hn st).vjpI hB hx hU
  have key : ∀ b, ((Net.l2norm id eps s n hs hl hn).backward (fun _ => 0) (X b) (U b)).1 = U b ᵥ* (Net.l2norm id eps s n hs hl hn).J st (X b) ↔
      eps = 0 ∨ ∑ i, U b i * X b i = 0 := fun b => by
    simp only [Net.backward, Net.J, Net.sem]
    exact l2Backward_iff eps (X b) (U b) _ (he b)
  constructor
  · rintro ⟨t', ht', hT'⟩ b
    obtain rfl : t = t' := by simpa using ht.symm.trans ht'
    exact (key b).1 (funext fun i => (hT'.2 b i).symm.trans (hT.2 b i))
  · intro hc
    exact ⟨t, ht, hT.congr fun b i => (congrFun ((key b).2 (hc b)) i).symm⟩

/-! ### The reference computes derivatives -/

/-- The backward formula of each activation is its derivative, but at the kink of ReLU, at the threshold of Softplus and where TruncExp is clamped. -/
theorem C56_reference_act (a : Act) (z : ℝ) (h : match a with
    | .relu => z ≠ 0
    | .softplus b t => b ≠ 0 ∧ z * b ≠ t
    | .truncExp => |z| ≤ 15
    | .custom f _ => DifferentiableAt ℝ f z
    | _ => True) : HasDerivAt a.fn (a.backward z) z := by
  cases a with
  | softplus b t =>
    rcases lt_or_gt_of_ne h.2 with h1 | h1
    · rw [Act.backward_eq (.softplus b t) z (le_of_lt h1)]
      exact act_hasDerivAt _ _ ⟨h.1, h1⟩
    · rw [show (Act.softplus b t).backward z = 1 from if_pos h1]
      exact softplus_above h1
  | relu => rw [Act.backward_eq .relu z trivial]; exact act_hasDerivAt _ _ h
  | sigmoid => rw [Act.backward_eq .sigmoid z trivial]; exact act_hasDerivAt _ _ h
  | tanh => rw [Act.backward_eq .tanh z trivial]; exact act_hasDerivAt _ _ h
  | sinusoidal => rw [Act.backward_eq .sinusoidal z trivial]; exact act_hasDerivAt _ _ h
  | truncExp => rw [Act.backward_eq .truncExp z trivial]; exact act_hasDerivAt _ _ h
  | custom f g => exact DifferentiableAt.hasDerivAt h

/-! ### Examples -/

example : (∃ t, Returns (exNet.mod.vjp exInput none ⟨[2, 1], fun _ => 1⟩ .input) exStore (some t) ∧
      IsVec t 2 2 fun b => (exNet.backward (exNet.w exStore) (fun i => (2 * b + i : ℝ)) fun _ => 1).1) :=
  (C56_vjp (N := exNet) exNet_ok two_pos exInput_isBatch (fun b => by simp [exNet, Net.Unsaturated, Chain.Unsaturated, Act.Below]) (u := ⟨[2, 1], fun _ => 1⟩)
    (U := fun _ _ => 1) ⟨rfl, fun _ _ => rfl⟩).1

/-- all layers with a spatial structure -/
example : (∃ t, Returns (exImg.mod.jacobian exImgInput none .weight) exImgStore (some t) ∧
      IsMat t 2 1 19 fun b i => (exImg.backward (exImg.w exImgStore) (fun i => (6 * b + i : ℝ)) (Pi.single i 1)).2) :=
  (C56_jacobian (N := exImg) exImg_ok two_pos exImgInput_isBatch (fun b => by simp [exImg, Net.Unsaturated, Chain.Unsaturated, Act.Below])).2 (by norm_num)

/-- ReLU at its kink -/
example : ∃ t, Returns (reluNet.mod.vjp (num 0) none (num 1) .input) reluStore (some t) ∧ IsVec t 1 1 fun _ _ => 0 := by
  obtain ⟨⟨t, h, ht⟩, _⟩ := C56_vjp (N := reluNet) reluNet_ok Nat.one_pos (num_isBatch 0)
    (fun b => by simp [reluNet, Net.Unsaturated, Chain.Unsaturated, Act.Below]) (num_isVec 1)
  exact ⟨t, h, ht.congr fun b i => by simp [reluNet, Net.backward, Chain.backward, Chain.sem, Sem.id, Act.backward]⟩

/-- a Softplus unit at 21 with the default threshold 20 -/
example (st : Store ℝ) : ¬ ∃ t, Returns ((Net.act (.softplus 1 20) 0 [1] 1 rfl Nat.one_pos).mod.vjp (num 21) none (num 1) .input) st (some t) ∧
    IsVec t 1 1 fun _ => ((Net.act (.softplus 1 20) 0 [1] 1 rfl Nat.one_pos).backward (fun _ => 0) (fun _ => 21) (fun _ => 1)).1 := by
  rw [C56_softplus (s := [1]) (n := 1) 1 20 0 rfl Nat.one_pos Nat.one_pos (num_isBatch 21) (num_isVec 1)]
  intro h
  have := h 0 0
  norm_num at this

/-- L2Norm with eps = 1 at 1 -/
example (st : Store ℝ) : ¬ ∃ t, Returns ((Net.l2norm 0 1 [1] 1 rfl (by norm_num) Nat.one_pos).mod.vjp (num 1) none (num 1) .input) st (some t) ∧
    IsVec t 1 1 fun _ => ((Net.l2norm 0 1 [1] 1 rfl (by norm_num) Nat.one_pos).backward (fun _ => 0) (fun _ => 1) (fun _ => 1)).1 := by
  rw [C56_l2norm (s := [1]) (n := 1) 1 0 rfl (by norm_num) Nat.one_pos Nat.one_pos (num_isBatch 1) (fun b => by simp [norm2]) (num_isVec 1)]
  intro h
  have := h 0
  norm_num at this

end Props
end NNJ
