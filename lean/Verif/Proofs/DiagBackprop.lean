import Verif.Proofs.NetFacts
import Verif.Proofs.Calls
import Verif.Spec.DiagBackprop

/-! When the propagated squares are the square of the product. -/

namespace NNJ
open Matrix

theorem sum_sq_one {l : Nat} (f : Fin l → ℝ) (h : ∀ a b, f a ≠ 0 → f b ≠ 0 → a = b) : (∑ a, f a) * (∑ a, f a) = ∑ a, f a * f a := by
  by_cases h0 : ∃ a, f a ≠ 0
  · obtain ⟨a, ha⟩ := h0
    have z : ∀ b, b ≠ a → f b = 0 := fun b hb => by_contra fun hf => hb (h b a hf ha)
    rw [Finset.sum_eq_single a (fun b _ hb => z b hb) (by simp), Finset.sum_eq_single a (fun b _ hb => by rw [z b hb, zero_mul]) (by simp)]
  · push Not at h0
    simp [h0]

variable {n l k p q : Nat}

theorem sq_mul {A : Matrix (Fin k) (Fin l) ℝ} {C : Matrix (Fin l) (Fin n) ℝ} (h : OneRow A ∨ OneCol C) :
    sq (A * C) = sq A * sq C := by
  ext i j
  show (A * C) i j * (A * C) i j = _
  rw [Matrix.mul_apply, Matrix.mul_apply, sum_sq_one]
  · exact Finset.sum_congr rfl fun a _ => by simp only [sq]; ring
  · intro a b ha hb
    rcases h with h | h
    · exact h i a b (left_ne_zero_of_mul ha) (left_ne_zero_of_mul hb)
    · exact h a b j (right_ne_zero_of_mul ha) (right_ne_zero_of_mul hb)

theorem sq_one : sq (1 : Matrix (Fin n) (Fin n) ℝ) = 1 := by
  ext i j; by_cases h : i = j <;> simp [sq, Matrix.one_apply, h]

theorem sq_hcat (A : Matrix (Fin k) (Fin p) ℝ) (C : Matrix (Fin k) (Fin q) ℝ) : sq (hcat A C) = hcat (sq A) (sq C) := by
  ext i j
  refine Fin.addCases (fun j => ?_) (fun j => ?_) j <;> simp [sq, hcat]

theorem vcat_l (A : Matrix (Fin k) (Fin n) ℝ) (C : Matrix (Fin l) (Fin n) ℝ) (i j) : vcat A C (Fin.castAdd l i) j = A i j :=
  congrFun (Fin.append_left A C i) j
theorem vcat_r (A : Matrix (Fin k) (Fin n) ℝ) (C : Matrix (Fin l) (Fin n) ℝ) (i j) : vcat A C (Fin.natAdd k i) j = C i j :=
  congrFun (Fin.append_right A C i) j

theorem sq_vcat (A : Matrix (Fin k) (Fin n) ℝ) (C : Matrix (Fin l) (Fin n) ℝ) : sq (vcat A C) = vcat (sq A) (sq C) := by
  ext i j
  refine Fin.addCases (fun i => ?_) (fun i => ?_) i
  · simp only [sq, vcat_l]
  · simp only [sq, vcat_r]

theorem sq_zero : sq (0 : Matrix (Fin k) (Fin n) ℝ) = 0 := by ext i j; simp [sq]

mutual
theorem Net.Q_exact : {s s' : List Nat} → {n k p : Nat} → (N : Net s n s' k p) → (w : Fin p → ℝ) → (x : Fin n → ℝ) →
    N.Exact w x → N.sem.Q w x = sq (N.sem.J w x)
  | _, _, _, _, _, .linear _ _ _ _ _ _ _, _, _, _ => rfl
  | _, _, _, _, _, .act _ _ _ _ _ _, _, _, _ => rfl
  | _, _, _, _, _, .flatten _ _ _ _ _, _, _, _ => rfl
  | _, _, _, _, _, .reshape _ _ _ _ _ _ _ _ _, _, _, _ => rfl
  | _, _, _, _, _, .l2norm _ _ _ _ _ _ _, _, _, _ => rfl
  | _, _, _, _, _, .conv _ _ _ _, _, _, _ => rfl
  | _, _, _, _, _, .upsample _ _ _ _ _ _ _ _ _, _, _, _ => rfl
  | _, _, _, _, _, .maxpool _ _, _, _, _ => rfl
  | _, _, _, _, _, .seq _ c, w, x, h => by
    simp only [Net.Exact] at h
    simp only [Net.sem]
    exact Chain.Q_exact c w x h
  | _, _, _, _, _, .skip _ _ c, w, x, h => by
    simp only [Net.Exact] at h
    simp only [Net.sem, Sem.skip]
    rw [sq_vcat, sq_one, Chain.Q_exact c w x h]
theorem Chain.Q_exact : {s s' : List Nat} → {n k p l : Nat} → (c : Chain s n s' k p l) → (w : Fin p → ℝ) → (x : Fin n → ℝ) →
    c.Exact w x → c.sem.Q w x = sq (c.sem.J w x)
  | _, _, _, _, _, _, .nil _ _ _ _, _, _, _ => by simp only [Chain.sem, Sem.id]; rw [sq_one]
  | _, _, _, _, _, _, .snoc c m, w, x, h => by
    simp only [Chain.Exact] at h
    simp only [Chain.sem, Sem.comp]
    rw [sq_mul h.2.2, Chain.Q_exact c _ _ h.1, Net.Q_exact m _ _ h.2.1]
end

mutual
theorem Net.QW_exact : {s s' : List Nat} → {n k p : Nat} → (N : Net s n s' k p) → (w : Fin p → ℝ) → (x : Fin n → ℝ) →
    N.ExactW w x → N.sem.QW w x = sq (N.sem.JW w x)
  | _, _, _, _, _, .linear _ _ _ _ _ _ _, _, _, _ => rfl
  | _, _, _, _, _, .act _ _ _ _ _ _, _, _, _ => rfl
  | _, _, _, _, _, .flatten _ _ _ _ _, _, _, _ => rfl
  | _, _, _, _, _, .reshape _ _ _ _ _ _ _ _ _, _, _, _ => rfl
  | _, _, _, _, _, .l2norm _ _ _ _ _ _ _, _, _, _ => rfl
  | _, _, _, _, _, .conv _ _ _ _, _, _, _ => rfl
  | _, _, _, _, _, .upsample _ _ _ _ _ _ _ _ _, _, _, _ => rfl
  | _, _, _, _, _, .maxpool _ _, _, _, _ => rfl
  | _, _, _, _, _, .seq _ c, w, x, h => by
    simp only [Net.ExactW] at h
    simp only [Net.sem]
    exact Chain.QW_exact c w x h
  | _, _, _, _, _, .skip _ _ c, w, x, h => by
    simp only [Net.ExactW] at h
    simp only [Net.sem, Sem.skip]
    rw [sq_vcat, sq_zero, Chain.QW_exact c w x h]
theorem Chain.QW_exact : {s s' : List Nat} → {n k p l : Nat} → (c : Chain s n s' k p l) → (w : Fin p → ℝ) → (x : Fin n → ℝ) →
    c.ExactW w x → c.sem.QW w x = sq (c.sem.JW w x)
  | _, _, _, _, _, _, .nil _ _ _ _, _, _, _ => by simp only [Chain.sem, Sem.id]; rw [sq_zero]
  | _, _, _, _, _, _, @Chain.snoc _ _ _ _ _ _ p _ _ c m, w, x, h => by
    simp only [Chain.ExactW] at h
    simp only [Chain.sem, Sem.comp]
    rw [sq_hcat, Net.QW_exact m _ _ h.2.1]
    congr 1
    rcases h.2.2 with hp | hm
    · subst hp; ext i j; exact j.elim0
    · rw [sq_mul hm.2, Chain.QW_exact c _ _ h.1, Net.Q_exact m _ _ hm.1]
end

/-! nonnegativity -/

def NonnegM {k n : Nat} (M : Matrix (Fin k) (Fin n) ℝ) : Prop := ∀ i j, 0 ≤ M i j

theorem nonneg_sq (A : Matrix (Fin k) (Fin n) ℝ) : NonnegM (sq A) := fun i j => mul_self_nonneg (A i j)
theorem nonneg_one : NonnegM (1 : Matrix (Fin n) (Fin n) ℝ) := fun i j => by
  rw [Matrix.one_apply]; split_ifs <;> norm_num
theorem NonnegM.mul {A : Matrix (Fin k) (Fin l) ℝ} {C : Matrix (Fin l) (Fin n) ℝ} (hA : NonnegM A) (hC : NonnegM C) : NonnegM (A * C) :=
  fun i j => by rw [Matrix.mul_apply]; exact Finset.sum_nonneg fun a _ => mul_nonneg (hA i a) (hC a j)
theorem NonnegM.hcat {A : Matrix (Fin k) (Fin p) ℝ} {C : Matrix (Fin k) (Fin q) ℝ} (hA : NonnegM A) (hC : NonnegM C) : NonnegM (hcat A C) :=
  fun i j => by refine Fin.addCases (fun j => ?_) (fun j => ?_) j <;> simp [NNJ.hcat, hA i _, hC i _]
theorem NonnegM.vcat {A : Matrix (Fin k) (Fin n) ℝ} {C : Matrix (Fin l) (Fin n) ℝ} (hA : NonnegM A) (hC : NonnegM C) : NonnegM (vcat A C) :=
  fun i j => by
    refine Fin.addCases (fun i => ?_) (fun i => ?_) i
    · rw [vcat_l]; exact hA _ _
    · rw [vcat_r]; exact hC _ _
theorem NonnegM.vecMul {A : Matrix (Fin k) (Fin n) ℝ} (hA : NonnegM A) {d : Fin k → ℝ} (hd : ∀ i, 0 ≤ d i) (j : Fin n) : 0 ≤ (d ᵥ* A) j := by
  simp only [Matrix.vecMul, dotProduct]; exact Finset.sum_nonneg fun i _ => mul_nonneg (hd i) (hA i j)
theorem NonnegM.mulVec {A : Matrix (Fin k) (Fin n) ℝ} (hA : NonnegM A) {d : Fin n → ℝ} (hd : ∀ i, 0 ≤ d i) (i : Fin k) : 0 ≤ (A *ᵥ d) i := by
  simp only [Matrix.mulVec, dotProduct]; exact Finset.sum_nonneg fun j _ => mul_nonneg (hA i j) (hd j)

mutual
theorem Net.Q_nonneg : {s s' : List Nat} → {n k p : Nat} → (N : Net s n s' k p) → (w : Fin p → ℝ) → (x : Fin n → ℝ) →
    NonnegM (N.sem.Q w x) ∧ NonnegM (N.sem.QW w x)
  | _, _, _, _, _, .linear _ _ _ _ _ _ _, _, _ => ⟨nonneg_sq _, nonneg_sq _⟩
  | _, _, _, _, _, .act _ _ _ _ _ _, _, _ => ⟨nonneg_sq _, nonneg_sq _⟩
  | _, _, _, _, _, .flatten _ _ _ _ _, _, _ => ⟨nonneg_sq _, nonneg_sq _⟩
  | _, _, _, _, _, .reshape _ _ _ _ _ _ _ _ _, _, _ => ⟨nonneg_sq _, nonneg_sq _⟩
  | _, _, _, _, _, .l2norm _ _ _ _ _ _ _, _, _ => ⟨nonneg_sq _, nonneg_sq _⟩
  | _, _, _, _, _, .conv _ _ _ _, _, _ => ⟨nonneg_sq _, nonneg_sq _⟩
  | _, _, _, _, _, .upsample _ _ _ _ _ _ _ _ _, _, _ => ⟨nonneg_sq _, nonneg_sq _⟩
  | _, _, _, _, _, .maxpool _ _, _, _ => ⟨nonneg_sq _, nonneg_sq _⟩
  | _, _, _, _, _, .seq _ c, w, x => by simp only [Net.sem]; exact Chain.Q_nonneg c w x
  | _, _, _, _, _, .skip _ _ c, w, x => by
    simp only [Net.sem, Sem.skip]
    exact ⟨nonneg_one.vcat (Chain.Q_nonneg c w x).1, (show NonnegM 0 from fun _ _ => le_rfl).vcat (Chain.Q_nonneg c w x).2⟩
theorem Chain.Q_nonneg : {s s' : List Nat} → {n k p l : Nat} → (c : Chain s n s' k p l) → (w : Fin p → ℝ) → (x : Fin n → ℝ) →
    NonnegM (c.sem.Q w x) ∧ NonnegM (c.sem.QW w x)
  | _, _, _, _, _, _, .nil _ _ _ _, _, _ => by simp only [Chain.sem, Sem.id]; exact ⟨nonneg_one, fun _ _ => le_rfl⟩
  | _, _, _, _, _, _, .snoc c m, w, x => by
    simp only [Chain.sem, Sem.comp]
    have h1 := Chain.Q_nonneg c (wl w) x
    have h2 := Net.Q_nonneg m (wr w) (c.sem.f (wl w) x)
    exact ⟨h2.1.mul h1.1, (h2.1.mul h1.2).hcat h2.2⟩
end

/-! diagonal layers -/

theorem OnDiag.oneRow {M : Matrix (Fin k) (Fin n) ℝ} (h : OnDiag M) : OneRow M := fun i j j' hj hj' => by
  have a : (i : Nat) = j := by_contra fun e => hj (h _ _ e)
  have b : (i : Nat) = j' := by_contra fun e => hj' (h _ _ e)
  exact Fin.ext (a.symm.trans b)
theorem OnDiag.oneCol {M : Matrix (Fin k) (Fin n) ℝ} (h : OnDiag M) : OneCol M := fun i i' j hj hj' => by
  have a : (i : Nat) = j := by_contra fun e => hj (h _ _ e)
  have b : (i' : Nat) = j := by_contra fun e => hj' (h _ _ e)
  exact Fin.ext (a.trans b.symm)
theorem OnDiag.mul {A : Matrix (Fin k) (Fin l) ℝ} {C : Matrix (Fin l) (Fin n) ℝ} (hA : OnDiag A) (hC : OnDiag C) : OnDiag (A * C) := by
  intro i j hij
  rw [Matrix.mul_apply]
  refine Finset.sum_eq_zero fun a _ => ?_
  by_cases h : (i : Nat) = a
  · rw [hC a j (fun e => hij (h.trans e)), mul_zero]
  · rw [hA i a h, zero_mul]
theorem onDiag_one : OnDiag (1 : Matrix (Fin n) (Fin n) ℝ) := fun i j h => by
  rw [Matrix.one_apply, if_neg (fun e => h (congrArg Fin.val e))]

theorem Net.Leaf.exact {s s' : List Nat} {N : Net s n s' k p} (h : N.Leaf) (w x) : N.Exact w x := by
  cases N <;> simp_all [Net.Leaf, Net.Exact]
theorem Net.Leaf.exactW {s s' : List Nat} {N : Net s n s' k p} (h : N.Leaf) (w x) : N.ExactW w x := by
  cases N <;> simp_all [Net.Leaf, Net.ExactW]

theorem Chain.AllDiag.facts : {s s' : List Nat} → {n k p l : Nat} → (c : Chain s n s' k p l) → (w : Fin p → ℝ) → (x : Fin n → ℝ) →
    c.AllDiag w x → c.Exact w x ∧ OnDiag (c.sem.J w x)
  | _, _, _, _, _, _, .nil _ _ _ _, _, _, _ => by
    simp only [Chain.sem, Sem.id, Chain.Exact]; exact ⟨trivial, onDiag_one⟩
  | _, _, _, _, _, _, .snoc c m, w, x, h => by
    simp only [Chain.AllDiag] at h
    have ih := Chain.AllDiag.facts c _ _ h.1
    simp only [Chain.sem, Sem.comp, Chain.Exact]
    exact ⟨⟨ih.1, h.2.1.exact _ _, .inl h.2.2.oneRow⟩, h.2.2.mul ih.2⟩

theorem Chain.AllButOneDiag.exact : {s s' : List Nat} → {n k p l : Nat} → (c : Chain s n s' k p l) → (w : Fin p → ℝ) → (x : Fin n → ℝ) →
    c.AllButOneDiag w x → c.Exact w x
  | _, _, _, _, _, _, .nil _ _ _ _, _, _, _ => by simp only [Chain.Exact]
  | _, _, _, _, _, _, .snoc c m, w, x, h => by
    simp only [Chain.AllButOneDiag] at h
    simp only [Chain.Exact]
    rcases h.2 with h1 | h1
    · have ih := Chain.AllDiag.facts c _ _ h1
      exact ⟨ih.1, h.1.exact _ _, .inr ih.2.oneCol⟩
    · exact ⟨Chain.AllButOneDiag.exact c _ _ h1.1, h.1.exact _ _, .inl h1.2.oneRow⟩

/-! the exact diagonals -/

theorem diag_conj (J : Matrix (Fin k) (Fin n) ℝ) (d : Fin k → ℝ) : diag (Jᵀ * diagonal d * J) = d ᵥ* sq J := by
  ext j
  rw [diag_apply, Matrix.mul_apply]
  simp only [mul_diagonal, transpose_apply, vecMul, dotProduct, sq]
  exact Finset.sum_congr rfl fun i _ => by ring

theorem diag_conj' (J : Matrix (Fin k) (Fin n) ℝ) (d : Fin n → ℝ) : diag (J * diagonal d * Jᵀ) = sq J *ᵥ d := by
  ext j
  rw [diag_apply, Matrix.mul_apply]
  simp only [mul_diagonal, transpose_apply, mulVec, dotProduct, sq]
  exact Finset.sum_congr rfl fun i _ => by ring

theorem metricArg_diag {A : Tensor ℝ} {B k : Nat} {d} (h : IsVec A B k d) : MetricArg true A B k fun b => diagonal (d b) :=
  ⟨d, h, fun _ => rfl⟩

end NNJ
