import Verif.Proofs.DerivAct

/-!
# C31, C39: L2Norm, TruncExp, Softplus and ReLU

Statements about the single layer objects, for every state, batch size, sample shape and input.
-/

namespace NNJ
namespace Props
open Matrix

variable {s : List Nat} {n B : Nat} {X : Fin B → Fin n → ℝ} {x : Tensor ℝ} (st : Store ℝ) (id : Nat)

/-! ### C31: L2Norm -/

/-- C31: every product of L2Norm is the product with the matrix that `jacobian` returns, for every
`eps`, sample shape and input (`torch.einsum`'s ellipsis is modelled for at most 8 dimensions), and this matrix is `(δ_ij - x_i x_j / (|x|+eps)²) / (|x|+eps)`. -/
theorem C31_products (eps : ℝ) (hs : size s = n) (hr : s.length ≤ 8) (hn : 0 < n) (hB : 0 < B) (hx : IsBatch x B s n X) :
    ∃ jt J, Returns ((L2Norm.mod eps id).jacobian x none .input) st (some jt) ∧ IsMat jt B n n J ∧
      (∀ b i j, J b i j = 1 / (norm2 (X b) + eps) *
        ((if i = j then 1 else 0) - 1 / (norm2 (X b) + eps) * X b i * (1 / (norm2 (X b) + eps) * X b j))) ∧
      (∀ v V, IsVec v B n V → ∃ t, Returns ((L2Norm.mod eps id).jvp x none v .input) st (some t) ∧ IsVec t B n fun b => J b *ᵥ V b) ∧
      (∀ v V, IsVec v B n V → ∃ t, Returns ((L2Norm.mod eps id).vjp x none v .input) st (some t) ∧ IsVec t B n fun b => V b ᵥ* J b) ∧
      (∀ r A Z, IsMat A B n r Z → ∃ t, Returns ((L2Norm.mod eps id).jmp x none (some A) .input) st (some t) ∧
        IsMat t B n r fun b => J b * Z b) ∧
      (∀ r A Z, 0 < r → IsMat A B r n Z → ∃ t, Returns ((L2Norm.mod eps id).mjp x none (some A) .input) st (some t) ∧
        IsMat t B r n fun b => Z b * J b) ∧
      (∀ fromDiag toDiag A Z, MetricArg fromDiag A B n Z →
        ∃ t, Returns ((L2Norm.mod eps id).jTmjp x none (some A) .input fromDiag toDiag false) st (.tensor t) ∧
          MetricOut toDiag t B n fun b => (J b)ᵀ * Z b * J b) ∧
      (∀ fromDiag toDiag A Z, MetricArg fromDiag A B n Z →
        ∃ t, Returns ((L2Norm.mod eps id).jmjTp x none (.tensor A) .input fromDiag toDiag false) st (some t) ∧
          MetricOut toDiag t B n fun b => J b * Z b * (J b)ᵀ) := by
  have h := l2Net_ok eps id hs hr hn st
  have hf : (Net.l2norm id eps s n hs hr hn).FwdI := trivial
  obtain ⟨jt, hj, hJ⟩ := h.jacI hB hx
  refine ⟨jt, _, hj, hJ, fun b i j => rfl, fun v V hv => h.jvpI hf hB hx hv, fun v V hv => h.vjpI hB hx hv,
    fun r A Z hA => h.jmpI hf hB hx hA, fun r A Z hr hA => h.mjpI hB hx hr hA, fun fd td A Z hA => h.jTI hB hx fd td hA,
    fun fd td A Z hA => h.jmjI hf hB hx fd td hA⟩

/-- C31: at a sample `x ≠ 0` (with `|x| + eps ≠ 0`, so that `forward` does not divide by 0) `forward`
has a derivative, and the matrix returned by `jacobian` differs from it by exactly
`eps x_i x_j / (|x| (|x|+eps)³)` in entry `(i, j)`. -/
theorem C31_distance (eps : ℝ) (hs : size s = n) (hr : s.length ≤ 8) (hn : 0 < n) (hB : 0 < B) (hx : IsBatch x B s n X) :
    ∃ jt J, Returns ((L2Norm.mod eps id).jacobian x none .input) st (some jt) ∧ IsMat jt B n n J ∧
      ∀ b, X b ≠ 0 → norm2 (X b) + eps ≠ 0 →
        ∃ D, HasFDerivAt (forwardMap (L2Norm.mod eps id) st s) (linMap D) (X b) ∧
          ∀ i j, J b i j - D i j = eps * (X b i * X b j) / (norm2 (X b) * (norm2 (X b) + eps) ^ 3) := by
  have h := l2Net_ok eps id hs hr hn st
  obtain ⟨jt, hj, hJ⟩ := h.jacI hB hx
  refine ⟨jt, _, hj, hJ, fun b h0 h1 => ?_⟩
  have h0' : norm2 (X b) ≠ 0 := fun e => h0 (norm2_eq_zero.1 e)
  refine ⟨l2Deriv eps (X b), ?_, fun i j => l2_distance h0' h1 i j⟩
  have e := h.forwardMap_eq
  simp only [Net.mod] at e
  rw [e]
  exact l2_hasFDerivAt eps h0' h1

/-- C31: for `eps = 0` and `x ≠ 0` it is the derivative -/
theorem C31_exact (hs : size s = n) (hr : s.length ≤ 8) (hn : 0 < n) (hB : 0 < B) (hx : IsBatch x B s n X) :
    ∃ jt J, Returns ((L2Norm.mod 0 id).jacobian x none .input) st (some jt) ∧ IsMat jt B n n J ∧
      ∀ b, X b ≠ 0 → HasFDerivAt (forwardMap (L2Norm.mod 0 id) st s) (linMap (J b)) (X b) := by
  obtain ⟨jt, J, hj, hJ, hD⟩ := C31_distance st id 0 hs hr hn hB hx
  refine ⟨jt, J, hj, hJ, fun b h0 => ?_⟩
  obtain ⟨D, hD1, hD2⟩ := hD b h0 (by rw [add_zero]; exact fun e => h0 (norm2_eq_zero.1 e))
  have : J b = D := by
    ext i j
    have := hD2 i j
    rw [zero_mul, zero_div] at this
    linarith
  rw [this]; exact hD1

/-- C31: for `eps > 0` and `x ≠ 0` it is never the derivative -/
theorem C31_never (eps : ℝ) (he : 0 < eps) (hs : size s = n) (hr : s.length ≤ 8) (hn : 0 < n) (hB : 0 < B) (hx : IsBatch x B s n X) :
    ∃ jt J, Returns ((L2Norm.mod eps id).jacobian x none .input) st (some jt) ∧ IsMat jt B n n J ∧
      ∀ b, X b ≠ 0 → ¬ HasFDerivAt (forwardMap (L2Norm.mod eps id) st s) (linMap (J b)) (X b) := by
  obtain ⟨jt, J, hj, hJ, hD⟩ := C31_distance st id eps hs hr hn hB hx
  refine ⟨jt, J, hj, hJ, fun b h0 hc => ?_⟩
  have hp : 0 < norm2 (X b) := lt_of_le_of_ne (norm2_nonneg _) fun e => h0 (norm2_eq_zero.1 e.symm)
  obtain ⟨D, hD1, hD2⟩ := hD b h0 (by positivity)
  obtain ⟨i, hi⟩ := Function.ne_iff.1 h0
  have hi' : X b i ≠ 0 := hi
  have := hD2 i i
  rw [linMap_unique hc hD1, sub_self] at this
  have h2 : eps * (X b i * X b i) / (norm2 (X b) * (norm2 (X b) + eps) ^ 3) ≠ 0 := by positivity
  exact h2 this.symm

/-- a nonzero input with two entries -/
example : ∃ jt J, Returns ((L2Norm.mod (1 / 10) 0).jacobian ⟨[1, 2], fun i => i⟩ none .input)
      ⟨fun _ => ⟨[], fun _ => 0⟩, fun _ => none, fun _ => none, fun _ => []⟩ (some jt) ∧ IsMat jt 1 2 2 J ∧
    ¬ HasFDerivAt (forwardMap (L2Norm.mod (1 / 10) 0) ⟨fun _ => ⟨[], fun _ => 0⟩, fun _ => none, fun _ => none, fun _ => []⟩ [2])
      (linMap (J 0)) (fun i => (i.val : ℝ)) := by
  obtain ⟨jt, J, h1, h2, h3⟩ := C31_never (X := fun (_ : Fin 1) (i : Fin 2) => (i.val : ℝ)) (x := ⟨[1, 2], fun i => i⟩)
    ⟨fun _ => ⟨[], fun _ => 0⟩, fun _ => none, fun _ => none, fun _ => []⟩ 0 (1 / 10) (by norm_num) (by simp) (by simp) two_pos one_pos
    ⟨rfl, fun b i => by simp⟩
  refine ⟨jt, J, h1, h2, h3 0 fun e => ?_⟩
  have := congrFun e 1
  simp at this

/-- a batch of two 1x2x2 images -/
example (st : Store ℝ) : ∃ jt J, Returns ((L2Norm.mod 0 0).jacobian ⟨[2, 1, 2, 2], fun i => i⟩ none .input) st (some jt) ∧ IsMat jt 2 4 4 J ∧
    HasFDerivAt (forwardMap (L2Norm.mod 0 0) st [1, 2, 2]) (linMap (J 1)) (fun i => ((1 * 4 + i.val : ℕ) : ℝ)) := by
  obtain ⟨jt, J, h1, h2, h3⟩ := C31_exact (X := fun (b : Fin 2) (i : Fin 4) => ((b.val * 4 + i.val : ℕ) : ℝ)) (x := ⟨[2, 1, 2, 2], fun i => i⟩)
    st 0 (by simp) (by simp) (by norm_num) two_pos ⟨rfl, fun b i => rfl⟩
  refine ⟨jt, J, h1, h2, h3 1 fun e => ?_⟩
  have := congrFun e 1
  norm_num at this

/-! ### C39: TruncExp, Softplus, ReLU -/

/-- C39, TruncExp: the matrix returned by `jacobian` is diagonal with entries `exp` of the input clamped
to [-15, 15], so in `[e^-15, e^15]`; it is the derivative of `forward` exactly if no input exceeds 15 in
absolute value. -/
theorem C39_truncExp (hs : size s = n) (hn : 0 < n) (hB : 0 < B) (hx : IsBatch x B s n X) :
    ∃ jt J, Returns ((Activation.toMod Activation.truncExp id).jacobian x none .input) st (some jt) ∧ IsMat jt B n n J ∧
      ∀ b, (HasFDerivAt (forwardMap (Activation.toMod Activation.truncExp id) st s) (linMap (J b)) (X b) ↔ ∀ i, |X b i| ≤ 15) ∧
        (∀ i, J b i i = Real.exp (max (-15) (min 15 (X b i))) ∧ Real.exp (-15) ≤ J b i i ∧ J b i i ≤ Real.exp 15) ∧
        ∀ i j, i ≠ j → J b i j = 0 := by
  have h := actNet_ok .truncExp id hs hn st
  obtain ⟨jt, hj, hJ⟩ := h.jacI hB hx
  refine ⟨jt, _, hj, hJ, fun b => ⟨?_, fun i => ?_, fun i j hij => diagonal_apply_ne _ hij⟩⟩
  · have e := h.forwardMap_eq
    simp only [Net.mod, Act.layer] at e
    rw [e]
    refine (hasFDerivAt_diagonal_iff _ _ _).trans (forall_congr' fun i => truncExp_deriv_iff _)
  · have e : Net.J (Net.act .truncExp id s n hs hn) st (X b) i i = Real.exp (max (-15) (min 15 (X b i))) := diagonal_apply_eq _ _
    rw [e]
    exact ⟨rfl, Real.exp_le_exp.2 (le_max_left _ _), Real.exp_le_exp.2 (max_le (by norm_num) (min_le_left _ _))⟩

/-- C39, Softplus: the matrix returned by `jacobian` is diagonal with entries `1 / (1 + e^(-beta x))`.
With `beta ≠ 0` and away from the threshold, `forward` has a diagonal derivative `D`; entries of `J` below
the threshold equal those of `D`, and entries above it are smaller by exactly `1 / (1 + e^(beta x))`, which is positive
and less than `e^(-threshold)`. -/
theorem C39_softplus (beta threshold : ℝ) (hb : beta ≠ 0) (hs : size s = n) (hn : 0 < n) (hB : 0 < B) (hx : IsBatch x B s n X) :
    ∃ jt J, Returns ((Activation.toMod (Activation.softplus beta threshold) id).jacobian x none .input) st (some jt) ∧ IsMat jt B n n J ∧
      ∀ b, (∀ i, X b i * beta ≠ threshold) →
        ∃ D, HasFDerivAt (forwardMap (Activation.toMod (Activation.softplus beta threshold) id) st s) (linMap D) (X b) ∧
          (∀ i j, i ≠ j → J b i j = D i j) ∧
          ∀ i, (X b i * beta < threshold → J b i i = D i i) ∧
            (threshold < X b i * beta → D i i - J b i i = 1 / (1 + Real.exp (beta * X b i)) ∧
              0 < D i i - J b i i ∧ D i i - J b i i < Real.exp (-threshold)) := by
  have h := actNet_ok (.softplus beta threshold) id hs hn st
  obtain ⟨jt, hj, hJ⟩ := h.jacI hB hx
  refine ⟨jt, _, hj, hJ, fun b hne => ?_⟩
  refine ⟨diagonal fun i => if threshold < X b i * beta then 1 else (Act.softplus beta threshold).deriv (X b i), ?_, fun i j hij => ?_, fun i => ?_⟩
  · have e := h.forwardMap_eq
    simp only [Net.mod, Act.layer] at e
    rw [e]
    refine (hasFDerivAt_diagonal_iff (Act.softplus beta threshold).fn _ _).2 fun i => ?_
    by_cases hi : threshold < X b i * beta
    · rw [if_pos hi]; exact softplus_above hi
    · rw [if_neg hi]
      exact act_hasDerivAt (.softplus beta threshold) _ ⟨hb, lt_of_le_of_ne (not_lt.1 hi) (hne i)⟩
  · rw [diagonal_apply_ne _ hij]
    exact diagonal_apply_ne _ hij
  · have e : Net.J (Net.act (.softplus beta threshold) id s n hs hn) st (X b) i i = (Act.softplus beta threshold).deriv (X b i) :=
      diagonal_apply_eq _ _
    rw [diagonal_apply_eq, e]
    refine ⟨fun hi => by rw [if_neg (not_lt.2 hi.le)], fun hi => ?_⟩
    rw [if_pos hi]
    have g := softplus_gap hi
    rw [g.1]
    exact ⟨rfl, g.2⟩

/-- C39, ReLU: the matrix returned by `jacobian` is diagonal, with entry 1 where the input is positive and
0 elsewhere, also at 0; it is the derivative exactly if no input is 0, and otherwise there is no derivative. -/
theorem C39_relu (hs : size s = n) (hn : 0 < n) (hB : 0 < B) (hx : IsBatch x B s n X) :
    ∃ jt J, Returns ((Activation.toMod Activation.relu id).jacobian x none .input) st (some jt) ∧ IsMat jt B n n J ∧
      ∀ b, (∀ i j, J b i j = if i = j ∧ 0 < X b i then 1 else 0) ∧
        (HasFDerivAt (forwardMap (Activation.toMod Activation.relu id) st s) (linMap (J b)) (X b) ↔ ∀ i, X b i ≠ 0) := by
  have h := actNet_ok .relu id hs hn st
  obtain ⟨jt, hj, hJ⟩ := h.jacI hB hx
  refine ⟨jt, _, hj, hJ, fun b => ⟨fun i j => ?_, ?_⟩⟩
  · have e : Net.J (Net.act .relu id s n hs hn) st (X b) i j = diagonal (fun i => (Act.relu).deriv (X b i)) i j := rfl
    rw [e, diagonal_apply]
    by_cases hij : i = j <;> simp [hij, Act.deriv]
  · have e := h.forwardMap_eq
    simp only [Net.mod, Act.layer] at e
    rw [e]
    refine (hasFDerivAt_diagonal_iff _ _ _).trans (forall_congr' fun i => ⟨fun hd h0 => ?_, fun h0 => act_hasDerivAt .relu _ h0⟩)
    rw [h0] at hd
    exact relu_not_differentiable ⟨_, hd⟩

/-- one sample with an entry in each regime, for each of the three layers -/
example (st : Store ℝ) : ∃ jt J, Returns ((Activation.toMod Activation.truncExp 0).jacobian ⟨[1, 2], fun i => 10 + 10 * i⟩ none .input) st (some jt) ∧
    IsMat jt 1 2 2 J ∧ J 0 1 1 = Real.exp 15 ∧
    ¬ HasFDerivAt (forwardMap (Activation.toMod Activation.truncExp 0) st [2]) (linMap (J 0)) (fun i => 10 + 10 * (i.val : ℝ)) := by
  obtain ⟨jt, J, h1, h2, h3⟩ := C39_truncExp (s := [2]) (X := fun (_ : Fin 1) (i : Fin 2) => 10 + 10 * (i.val : ℝ))
    (x := ⟨[1, 2], fun i => 10 + 10 * i⟩) st 0 rfl two_pos one_pos ⟨rfl, fun b i => by simp⟩
  refine ⟨jt, J, h1, h2, ?_, fun hd => ?_⟩
  · rw [((h3 0).2.1 1).1]; norm_num
  · have := (h3 0).1.1 hd 1
    norm_num at this

example (st : Store ℝ) : ∃ jt J, Returns ((Activation.toMod (Activation.softplus 1 20) 0).jacobian ⟨[1, 2], fun i => 10 + 20 * i⟩ none .input) st (some jt) ∧
    IsMat jt 1 2 2 J ∧ ∃ D : Matrix (Fin 2) (Fin 2) ℝ, HasFDerivAt (forwardMap (Activation.toMod (Activation.softplus 1 20) 0) st [2]) (linMap D) (fun i => 10 + 20 * (i.val : ℝ)) ∧
      J 0 0 0 = D 0 0 ∧ 0 < D 1 1 - J 0 1 1 := by
  obtain ⟨jt, J, h1, h2, h3⟩ := C39_softplus (s := [2]) (X := fun (_ : Fin 1) (i : Fin 2) => 10 + 20 * (i.val : ℝ))
    (x := ⟨[1, 2], fun i => 10 + 20 * i⟩) st 0 1 20 one_ne_zero rfl two_pos one_pos ⟨rfl, fun b i => by simp⟩
  obtain ⟨D, d1, d2, d3⟩ := h3 0 (fun i => by fin_cases i <;> norm_num)
  exact ⟨jt, J, h1, h2, D, d1, (d3 0).1 (by norm_num), ((d3 1).2 (by norm_num)).2.1⟩

example (st : Store ℝ) : ∃ jt J, Returns ((Activation.toMod Activation.relu 0).jacobian ⟨[1, 2], fun i => i⟩ none .input) st (some jt) ∧
    IsMat jt 1 2 2 J ∧ J (0 : Fin 1) (0 : Fin 2) (0 : Fin 2) = 0 ∧ J (0 : Fin 1) (1 : Fin 2) (1 : Fin 2) = 1 := by
  obtain ⟨jt, J, h1, h2, h3⟩ := C39_relu (s := [2]) (X := fun (_ : Fin 1) (i : Fin 2) => (i.val : ℝ))
    (x := ⟨[1, 2], fun i => i⟩) st 0 rfl two_pos one_pos ⟨rfl, fun b i => by simp⟩
  refine ⟨jt, J, h1, h2, ?_, ?_⟩ <;> rw [(h3 0).1] <;> simp

end Props
end NNJ
