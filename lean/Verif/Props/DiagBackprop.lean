import Verif.Proofs.DiagBackprop
import Verif.Spec.Example

/-!
# C11: what `diag_backprop=True` computes

`N.sem.Q` and `N.sem.QW` (Spec/Sem.lean) are products along the network of the entrywise squares of the
matrices `jacobian` returns for the single layers.
-/

namespace NNJ
namespace Props
open Matrix

variable {s s' : List Nat} {n k p : Nat} {N : Net s n s' k p} {st : Store ℝ}
variable {B : Nat} {X : Fin B → Fin n → ℝ} {x : Tensor ℝ}

/-- C11, jTmjp wrt input: the diagonal `d` goes backwards through the entrywise squares; no negative entry
appears if there is none in `d`. -/
theorem C11_jTmjp_input (h : N.Ok st) (hB : 0 < B) (hx : IsBatch x B s n X) {A : Tensor ℝ} {d} (hA : IsVec A B k d) :
    ∃ (t : Tensor ℝ) (T : Fin B → Fin n → ℝ), Returns (N.mod.jTmjp x none (some A) .input true true true) st (.tensor t) ∧ IsVec t B n T ∧
      ∀ b, T b = d b ᵥ* N.sem.Q (N.w st) (X b) ∧ ((∀ i, 0 ≤ d b i) → ∀ j, 0 ≤ T b j) := by
  obtain ⟨t, ht, hT⟩ := h.jTIdb hB hx hA
  exact ⟨t, _, ht, hT, fun b => ⟨rfl, fun hd => (N.Q_nonneg _ _).1.vecMul hd⟩⟩

/-- C11, jTmjp wrt weight -/
theorem C11_jTmjp_weight (h : N.Ok st) (hB : 0 < B) (hx : IsBatch x B s n X) (hp : 0 < p) {A : Tensor ℝ} {d} (hA : IsVec A B k d) :
    ∃ (t : Tensor ℝ) (T : Fin B → Fin p → ℝ), Returns (N.mod.jTmjp x none (some A) .weight true true true) st (.tensor t) ∧ IsVec t B p T ∧
      ∀ b, T b = d b ᵥ* N.sem.QW (N.w st) (X b) ∧ ((∀ i, 0 ≤ d b i) → ∀ j, 0 ≤ T b j) := by
  obtain ⟨t, ht, hT⟩ := (h.jTWdb hB hx hA).1 hp
  exact ⟨t, _, ht, hT, fun b => ⟨rfl, fun hd => (N.Q_nonneg _ _).2.vecMul hd⟩⟩

/-- C11, jmjTp wrt input -/
theorem C11_jmjTp_input (hf : N.FwdI) (h : N.Ok st) (hB : 0 < B) (hx : IsBatch x B s n X) {A : Tensor ℝ} {d} (hA : IsVec A B n d) :
    ∃ (t : Tensor ℝ) (T : Fin B → Fin k → ℝ), Returns (N.mod.jmjTp x none (.tensor A) .input true true true) st (some t) ∧ IsVec t B k T ∧
      ∀ b, T b = N.sem.Q (N.w st) (X b) *ᵥ d b ∧ ((∀ i, 0 ≤ d b i) → ∀ j, 0 ≤ T b j) := by
  obtain ⟨t, ht, hT⟩ := h.jmjIdb hf hB hx hA
  exact ⟨t, _, ht, hT, fun b => ⟨rfl, fun hd => (N.Q_nonneg _ _).1.mulVec hd⟩⟩

/-- C11, jmjTp wrt weight -/
theorem C11_jmjTp_weight (hf : N.PushW) (h : N.Ok st) (hB : 0 < B) (hx : IsBatch x B s n X) (hp : 0 < p) {A : Tensor ℝ} {d} (hA : IsVec A B p d) :
    ∃ (t : Tensor ℝ) (T : Fin B → Fin k → ℝ), Returns (N.mod.jmjTp x none (.tensor A) .weight true true true) st (some t) ∧ IsVec t B k T ∧
      ∀ b, T b = N.sem.QW (N.w st) (X b) *ᵥ d b ∧ ((∀ i, 0 ≤ d b i) → ∀ j, 0 ≤ T b j) := by
  obtain ⟨t, ht, hT⟩ := h.jmjWdb hf hp hB hx hA
  exact ⟨t, _, ht, hT, fun b => ⟨rfl, fun hd => (N.Q_nonneg _ _).2.mulVec hd⟩⟩

/-- On a layer, the matrix used is the entrywise square of what `jacobian` returns. -/
theorem C11_layer_matrix (h : N.Ok st) (hB : 0 < B) (hx : IsBatch x B s n X) (hl : N.Leaf) :
    (∃ jt J, Returns (N.mod.jacobian x none .input) st (some jt) ∧ IsMat jt B k n J ∧
      ∀ b i j, N.sem.Q (N.w st) (X b) i j = J b i j * J b i j) ∧
    (0 < p → ∃ jt J, Returns (N.mod.jacobian x none .weight) st (some jt) ∧ IsMat jt B k p J ∧
      ∀ b i j, N.sem.QW (N.w st) (X b) i j = J b i j * J b i j) := by
  constructor
  · obtain ⟨jt, hj, hJ⟩ := h.jacI hB hx
    exact ⟨jt, _, hj, hJ, fun b i j => by rw [N.Q_exact _ _ (hl.exact _ _)]; rfl⟩
  · intro hp
    obtain ⟨jt, hj, hJ⟩ := h.jacW hB hx hp
    exact ⟨jt, _, hj, hJ, fun b i j => by rw [N.QW_exact _ _ (hl.exactW _ _)]; rfl⟩

/-- C11, exactness: where every module has at most one non-zero entry per row, or those before it together
at most one per column, `diag_backprop` makes no difference. -/
theorem C11_exact (h : N.Ok st) (hB : 0 < B) (hx : IsBatch x B s n X) (he : ∀ b, N.Exact (N.w st) (X b)) :
    (∀ A d, IsVec A B k d → ∃ t u, Returns (N.mod.jTmjp x none (some A) .input true true true) st (.tensor t) ∧
      Returns (N.mod.jTmjp x none (some A) .input true true false) st (.tensor u) ∧ TEq t u) ∧
    (N.FwdI → ∀ A d, IsVec A B n d → ∃ t u, Returns (N.mod.jmjTp x none (.tensor A) .input true true true) st (some t) ∧
      Returns (N.mod.jmjTp x none (.tensor A) .input true true false) st (some u) ∧ TEq t u) := by
  constructor
  · intro A d hA
    obtain ⟨t, ht, hT⟩ := h.jTIdb hB hx hA
    obtain ⟨u, hu, hU⟩ := h.jTI hB hx true true (metricArg_diag hA)
    refine ⟨t, u, ht, hu, teq_vec hT (hU.congr fun b i => ?_)⟩
    rw [diag_conj, Net.Q, N.Q_exact _ _ (he b)]; rfl
  · intro hf A d hA
    obtain ⟨t, ht, hT⟩ := h.jmjIdb hf hB hx hA
    obtain ⟨u, hu, hU⟩ := h.jmjI hf hB hx true true (metricArg_diag hA)
    refine ⟨t, u, ht, hu, teq_vec hT (hU.congr fun b i => ?_)⟩
    rw [diag_conj', Net.Q, N.Q_exact _ _ (he b)]; rfl

/-- C11, exactness for the weights -/
theorem C11_exact_weight (h : N.Ok st) (hB : 0 < B) (hx : IsBatch x B s n X) (hp : 0 < p) (he : ∀ b, N.ExactW (N.w st) (X b)) {A d}
    (hA : IsVec A B k d) :
    ∃ t u, Returns (N.mod.jTmjp x none (some A) .weight true true true) st (.tensor t) ∧
      Returns (N.mod.jTmjp x none (some A) .weight true true false) st (.tensor u) ∧ TEq t u := by
  obtain ⟨t, ht, hT⟩ := (h.jTWdb hB hx hA).1 hp
  obtain ⟨u, hu, hU⟩ := (h.jTWd hB hx true (metricArg_diag hA)).1 hp
  refine ⟨t, u, ht, hu, teq_vec hT (hU.congr fun b i => ?_)⟩
  rw [diag_conj, Net.QW, N.QW_exact _ _ (he b)]; rfl

/-- C11: exact for a single layer -/
theorem C11_exact_layer (h : N.Ok st) (hB : 0 < B) (hx : IsBatch x B s n X) (hl : N.Leaf) {A d} (hA : IsVec A B k d) :
    (∃ t u, Returns (N.mod.jTmjp x none (some A) .input true true true) st (.tensor t) ∧
      Returns (N.mod.jTmjp x none (some A) .input true true false) st (.tensor u) ∧ TEq t u) ∧
    (0 < p → ∃ t u, Returns (N.mod.jTmjp x none (some A) .weight true true true) st (.tensor t) ∧
      Returns (N.mod.jTmjp x none (some A) .weight true true false) st (.tensor u) ∧ TEq t u) :=
  ⟨(C11_exact h hB hx fun _ => hl.exact _ _).1 A d hA, fun hp => C11_exact_weight h hB hx hp (fun _ => hl.exactW _ _) hA⟩

/-- C11: exact for a Sequential of layers all but one of which have a diagonal Jacobian -/
theorem C11_exact_all_but_one {id l : Nat} {c : Chain s n s' k p (l + 1)} (h : (Net.seq id c).Ok st) (hB : 0 < B) (hx : IsBatch x B s n X)
    (hd : ∀ b, c.AllButOneDiag (c.w st) (X b)) {A d} (hA : IsVec A B k d) :
    ∃ t u, Returns ((Net.seq id c).mod.jTmjp x none (some A) .input true true true) st (.tensor t) ∧
      Returns ((Net.seq id c).mod.jTmjp x none (some A) .input true true false) st (.tensor u) ∧ TEq t u := by
  refine (C11_exact h hB hx fun b => ?_).1 A d hA
  simp only [Net.Exact, Net.w]
  exact Chain.AllButOneDiag.exact c _ _ (hd b)

/-- C11: the entries for the weights of the last layer of a Sequential are exact, whatever comes before -/
theorem C11_exact_last_weights {id l q j : Nat} {s'' : List Nat} {c : Chain s n s' k p l} {m : Net s' k s'' j q} (hl : m.Leaf)
    (h : (Net.seq id (.snoc c m)).Ok st) (hB : 0 < B) (hx : IsBatch x B s n X) (hq : 0 < q) {A d} (hA : IsVec A B j d) :
    ∃ t u, Returns ((Net.seq id (.snoc c m)).mod.jTmjp x none (some A) .weight true true true) st (.tensor t) ∧
      Returns ((Net.seq id (.snoc c m)).mod.jTmjp x none (some A) .weight true true false) st (.tensor u) ∧
      t.shape = [B, p + q] ∧ u.shape = [B, p + q] ∧
      ∀ (b : Fin B) (i : Fin q), t.get [(b : Nat), p + i] = u.get [(b : Nat), p + i] := by
  obtain ⟨t, ht, hT⟩ := (h.jTWdb hB hx hA).1 (by omega)
  obtain ⟨u, hu, hU⟩ := (h.jTWd hB hx true (metricArg_diag hA)).1 (by omega)
  refine ⟨t, u, ht, hu, hT.1, hU.1, fun b i => ?_⟩
  have e1 := hT.2 b (Fin.natAdd p i)
  have e2 := hU.2 b (Fin.natAdd p i)
  rw [Fin.val_natAdd] at e1 e2
  rw [e1, e2]
  refine Eq.trans ?_ (congrFun (diag_conj _ _) _).symm
  simp only [vecMul, dotProduct, Net.QW, Net.JW, Net.sem, Chain.sem, Sem.comp, sq_hcat, ← m.QW_exact _ _ (hl.exactW _ _)]
  refine Finset.sum_congr rfl fun r _ => ?_
  simp [hcat]

/-! ### Concrete networks -/

/-- `Sequential(Linear(1, 2, bias=False), Linear(2, 1, bias=False))` -/
noncomputable def twoLin : Net [1] 1 [1] 1 (0 + (2 * 1 + 0) + (1 * 2 + 0)) :=
  .seq 0 (.snoc (.snoc (.nil [1] 1 rfl (by norm_num)) (.linear 1 0 none 1 2 (by norm_num) (by norm_num)))
    (.linear 2 1 none 2 1 (by norm_num) (by norm_num)))

/-- all weights are 1 -/
noncomputable def twoLinStore : Store ℝ where
  param i := if i = 0 then ⟨[2, 1], fun _ => 1⟩ else ⟨[1, 2], fun _ => 1⟩
  fmaps i := if i = 0 then some [] else none
  pidx _ := none
  hooks i := if i = 1 ∨ i = 2 then [0] else []

theorem twoLin_ok : twoLin.Ok twoLinStore := by
  refine ⟨by simp only [twoLin, Net.ids, Chain.ids]; decide, ?_⟩
  simp [twoLin, Net.Wired, Chain.Wired, twoLinStore, Net.mod, Linear.mod, PureLayer.toMod]

theorem twoLin_w : twoLin.w twoLinStore = fun _ => 1 := by
  have e : twoLin.w twoLinStore = Fin.append (Fin.append (fun _ => 0) (linearW 0 none 1 2 twoLinStore)) (linearW 1 none 2 1 twoLinStore) := by
    simp only [twoLin, Net.w, Chain.w]; rfl
  rw [e]
  funext i
  fin_cases i <;> rfl

/-- C11: not exact in general.  For `x ↦ x + x` written as two Linear layers, `diag_backprop` returns 2 and the exact
diagonal is 4. -/
theorem C11_not_exact : ∃ t u,
    Returns (twoLin.mod.jTmjp ⟨[1, 1], fun _ => 5⟩ none (some ⟨[1, 1], fun _ => 1⟩) .input true true true) twoLinStore (.tensor t) ∧
    Returns (twoLin.mod.jTmjp ⟨[1, 1], fun _ => 5⟩ none (some ⟨[1, 1], fun _ => 1⟩) .input true true false) twoLinStore (.tensor u) ∧
    t.get [0, 0] = 2 ∧ u.get [0, 0] = 4 := by
  have hx : IsBatch (⟨[1, 1], fun _ => 5⟩ : Tensor ℝ) 1 [1] 1 fun _ _ => 5 := ⟨rfl, fun _ _ => rfl⟩
  have hA : IsVec (⟨[1, 1], fun _ => 1⟩ : Tensor ℝ) 1 1 fun _ _ => 1 := ⟨rfl, fun _ _ => rfl⟩
  obtain ⟨t, ht, hT⟩ := twoLin_ok.jTIdb one_pos hx hA
  obtain ⟨u, hu, hU⟩ := twoLin_ok.jTI one_pos hx true true (metricArg_diag hA)
  refine ⟨t, u, ht, hu, (hT.2 0 0).trans ?_, (hU.2 0 0).trans ?_⟩
  · simp only [Net.Q, twoLin_w]
    simp [twoLin, Net.sem, Chain.sem, Sem.comp, Sem.id, linearSem, Sem.leaf, vecMul, dotProduct, Matrix.mul_apply, sq, wl, wr]
  · refine (congrFun (diag_conj _ _) _).trans ?_
    simp only [Net.J, twoLin_w]
    simp [twoLin, Net.sem, Chain.sem, Sem.comp, Sem.id, linearSem, Sem.leaf, vecMul, dotProduct, sq, wl, wr]
    have e : ∀ (A : Matrix (Fin 1) (Fin 2) ℝ) (C : Matrix (Fin 2) (Fin 1) ℝ), (A * (C * (1 : Matrix (Fin 1) (Fin 1) ℝ)) : Matrix (Fin 1) (Fin 1) ℝ) 0 0 = A 0 0 * C 0 0 + A 0 1 * C 1 0 := by
      intro A C; rw [Matrix.mul_one, Matrix.mul_apply, Fin.sum_univ_two]
    refine Eq.trans (congrArg₂ (· * ·) (e _ _) (e _ _)) ?_; norm_num

/-- `Sequential(Tanh(), Linear(2, 3), ReLU())`: all layers but one have a diagonal Jacobian -/
noncomputable def actNet : Net [2] 2 [3] 3 (0 + 0 + (3 * 2 + 3) + 0) :=
  .seq 0 (.snoc (.snoc (.snoc (.nil [2] 2 rfl (by norm_num)) (.act .tanh 1 [2] 2 rfl (by norm_num)))
    (.linear 2 0 (some 1) 2 3 (by norm_num) (by norm_num))) (.act .relu 3 [3] 3 rfl (by norm_num)))

noncomputable def actStore : Store ℝ where
  param i := if i = 0 then ⟨[3, 2], fun j => j⟩ else ⟨[3], fun _ => 1⟩
  fmaps i := if i = 0 then some [] else none
  pidx _ := none
  hooks i := if i = 1 ∨ i = 2 ∨ i = 3 then [0] else []

theorem actNet_ok : actNet.Ok actStore := by
  refine ⟨by simp only [actNet, Net.ids, Chain.ids]; decide, ?_⟩
  simp [actNet, Net.Wired, Chain.Wired, actStore, Net.mod, Linear.mod, Activation.toMod, PureLayer.toMod]

theorem act_onDiag (a : Act) (n : Nat) (w x) : OnDiag ((a.sem n).J w x) := by
  intro i j h
  simp only [Act.sem, Sem.leaf0, Sem.leaf]
  exact diagonal_apply_ne _ fun e => h (congrArg Fin.val e)

example : ∃ t u,
    Returns (actNet.mod.jTmjp exInput none (some ⟨[2, 3], fun i => i - 1⟩) .input true true true) actStore (.tensor t) ∧
    Returns (actNet.mod.jTmjp exInput none (some ⟨[2, 3], fun i => i - 1⟩) .input true true false) actStore (.tensor u) ∧ TEq t u := by
  refine C11_exact_all_but_one actNet_ok two_pos exInput_isBatch (fun b => ?_)
    (A := ⟨[2, 3], fun i => i - 1⟩) (d := fun b i => (3 * b + i : ℝ) - 1) ⟨rfl, fun b i => ?_⟩
  · simp only [Chain.AllButOneDiag, Chain.AllDiag, Net.Leaf, Net.sem]
    exact ⟨trivial, .inr ⟨⟨trivial, .inl ⟨trivial, trivial, act_onDiag _ _ _ _⟩⟩, act_onDiag _ _ _ _⟩⟩
  · simp [Tensor.get, ravel, size]; ring

example : ∃ (t : Tensor ℝ) (T : Fin 2 → Fin 2 → ℝ),
    Returns (exNet.mod.jTmjp exInput none (some ⟨[2, 1], fun _ => 1⟩) .input true true true) exStore (.tensor t) ∧
    IsVec t 2 2 T ∧ ∀ b j, 0 ≤ T b j := by
  obtain ⟨t, T, h1, h2, h3⟩ := C11_jTmjp_input exNet_ok two_pos exInput_isBatch (A := ⟨[2, 1], fun _ => 1⟩) (d := fun _ _ => 1)
    ⟨rfl, fun _ _ => rfl⟩
  exact ⟨t, T, h1, h2, fun b => (h3 b).2 fun _ => zero_le_one⟩

/-- the weights of the second layer of `twoLin` -/
example : ∃ t u,
    Returns (twoLin.mod.jTmjp ⟨[1, 1], fun _ => 5⟩ none (some ⟨[1, 1], fun _ => 1⟩) .weight true true true) twoLinStore (.tensor t) ∧
    Returns (twoLin.mod.jTmjp ⟨[1, 1], fun _ => 5⟩ none (some ⟨[1, 1], fun _ => 1⟩) .weight true true false) twoLinStore (.tensor u) ∧
    t.shape = [1, 4] ∧ u.shape = [1, 4] ∧ ∀ (b : Fin 1) (i : Fin 2), t.get [(b : Nat), 2 + i] = u.get [(b : Nat), 2 + i] :=
  C11_exact_last_weights (s := [1]) (n := 1) (by simp [Net.Leaf]) twoLin_ok one_pos (X := fun _ _ => 5) ⟨rfl, fun _ _ => rfl⟩ (by norm_num)
    (d := fun _ _ => 1) ⟨rfl, fun _ _ => rfl⟩

/-- a single Linear layer -/
example : ∃ t u,
    Returns ((Net.linear 1 0 none 1 2 one_pos two_pos).mod.jTmjp ⟨[1, 1], fun _ => 5⟩ none (some ⟨[1, 2], fun _ => 1⟩) .weight true true true)
      twoLinStore (.tensor t) ∧
    Returns ((Net.linear 1 0 none 1 2 one_pos two_pos).mod.jTmjp ⟨[1, 1], fun _ => 5⟩ none (some ⟨[1, 2], fun _ => 1⟩) .weight true true false)
      twoLinStore (.tensor u) ∧ TEq t u :=
  (C11_exact_layer ⟨by simp [Net.ids], by simp [Net.Wired, twoLinStore]⟩ one_pos (X := fun _ _ => 5) ⟨rfl, fun _ _ => rfl⟩ (by simp [Net.Leaf])
    (d := fun _ _ => 1) ⟨rfl, fun _ _ => rfl⟩).2 (by norm_num)

end Props
end NNJ
