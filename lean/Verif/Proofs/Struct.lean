import Verif.Proofs.Ein
import Verif.Spec.Sem

/-! Structural tensor operations (concatenation, slices, transposition, reshaping) on views. -/

namespace NNJ
open Tensor Matrix

@[simp] theorem vcat_left {m k n : Nat} (A : Matrix (Fin m) (Fin n) ℝ) (B : Matrix (Fin k) (Fin n) ℝ) (i : Fin m) (j : Fin n) :
    vcat A B (Fin.castAdd k i) j = A i j := congrFun (Fin.append_left A B i) j
@[simp] theorem vcat_right {m k n : Nat} (A : Matrix (Fin m) (Fin n) ℝ) (B : Matrix (Fin k) (Fin n) ℝ) (i : Fin k) (j : Fin n) :
    vcat A B (Fin.natAdd m i) j = B i j := congrFun (Fin.append_right A B i) j
@[simp] theorem hcat_left {k p q : Nat} (A : Matrix (Fin k) (Fin p) ℝ) (B : Matrix (Fin k) (Fin q) ℝ) (i : Fin k) (j : Fin p) :
    hcat A B i (Fin.castAdd q j) = A i j := Fin.append_left (A i) (B i) j
@[simp] theorem hcat_right {k p q : Nat} (A : Matrix (Fin k) (Fin p) ℝ) (B : Matrix (Fin k) (Fin q) ℝ) (i : Fin k) (j : Fin q) :
    hcat A B i (Fin.natAdd p j) = B i j := Fin.append_right (A i) (B i) j

/-! ### expand -/

theorem unsqueeze0 (t : Tensor ℝ) : Ret (t.unsqueeze 0) fun r => r.shape = 1 :: t.shape ∧ r.data = t.data := by
  simp only [unsqueeze, Nat.zero_le, if_true]
  exact Ret.ok ⟨by simp, rfl⟩

theorem expand0 {t : Tensor ℝ} {s : List Nat} (B : Nat) (ht : t.shape = 1 :: s) :
    Ret (t.expandAt 0 B) fun r => r.shape = B :: s ∧ ∀ b idx, Valid (B :: s) (b :: idx) → r.get (b :: idx) = t.get (0 :: idx) := by
  simp only [expandAt, ht, List.getElem?_cons_zero]
  refine Ret.ok ⟨rfl, fun b idx h => ?_⟩
  erw [get_ofFn _ h]
  rfl

theorem expand_mat {t : Tensor ℝ} {m n : Nat} (B : Nat) {A : Matrix (Fin m) (Fin n) ℝ} (ht : t.shape = [m, n])
    (hA : ∀ (i : Fin m) (j : Fin n), t.get [↑i, ↑j] = A i j) {Q : Option (Tensor ℝ) → Prop}
    (hQ : ∀ r, IsMat r B m n (fun _ => A) → Q (some r)) :
    Ret (do let w ← t.unsqueeze 0; some <$> w.expandAt 0 B) Q := by
  refine (unsqueeze0 t).bind fun w hw => ?_
  refine (expand0 B (hw.1.trans (by rw [ht]))).map fun r hr => hQ r ⟨hr.1, fun b i j => ?_⟩
  rw [hr.2 _ _ (by simp)]
  refine Eq.trans ?_ (hA i j)
  simp only [Tensor.get, hw.1, hw.2, ht, ravel, zero_mul, zero_add]

theorem unsqueeze_expand {t : Tensor ℝ} {m n : Nat} (B : Nat) {A : Matrix (Fin m) (Fin n) ℝ} (ht : t.shape = [m, n])
    (hA : ∀ (i : Fin m) (j : Fin n), t.get [↑i, ↑j] = A i j) {β : Type} {k : Tensor ℝ → Res β} {Q : β → Prop}
    (hQ : ∀ r, IsMat r B m n (fun _ => A) → Ret (k r) Q) :
    Ret (do let w ← t.unsqueeze 0; let r ← w.expandAt 0 B; k r) Q := by
  refine (unsqueeze0 t).bind fun w hw => ?_
  refine (expand0 B (hw.1.trans (by rw [ht]))).bind fun r hr => hQ r ⟨hr.1, fun b i j => ?_⟩
  rw [hr.2 _ _ (by simp)]
  refine Eq.trans ?_ (hA i j)
  simp only [Tensor.get, hw.1, hw.2, ht, ravel, zero_mul, zero_add]

/-- `torch.diag_embed(torch.ones(n))` -/
theorem eye_ret {n : Nat} : Ret ((ones [n] : Tensor ℝ).diagEmbed) fun r =>
    r.shape = [n, n] ∧ ∀ i j : Fin n, r.get [↑i, ↑j] = (1 : Matrix (Fin n) (Fin n) ℝ) i j := by
  refine Ret.ok ⟨rfl, fun i j => ?_⟩
  erw [get_ofFn _ (by simp [ones, full])]
  simp [one_apply, Fin.ext_iff, ones, full, Tensor.get]

/-! ### arithmetic -/

theorem add_vec {B n : Nat} {a c : Tensor ℝ} {X Y : Fin B → Fin n → ℝ} (ha : IsVec a B n X)
    (hc : IsVec c B n Y) : Ret (a.add c) fun r => IsVec r B n fun b => X b + Y b := by
  simp only [Tensor.add, zipWithB, ha.1, hc.1, if_true]
  refine Ret.ok ⟨rfl, fun b i => ?_⟩
  rw [get2 rfl]
  simp [ha.data, hc.data]

theorem mul_vec {B n : Nat} {a c : Tensor ℝ} {X Y : Fin B → Fin n → ℝ} (ha : IsVec a B n X)
    (hc : IsVec c B n Y) : Ret (a.mul c) fun r => IsVec r B n fun b i => X b i * Y b i := by
  simp only [Tensor.mul, zipWithB, ha.1, hc.1, if_true]
  refine Ret.ok ⟨rfl, fun b i => ?_⟩
  rw [get2 rfl]
  simp [ha.data, hc.data]

theorem add_mat {B m n : Nat} {a c : Tensor ℝ} {M N : Fin B → Matrix (Fin m) (Fin n) ℝ} (ha : IsMat a B m n M)
    (hc : IsMat c B m n N) : Ret (a.add c) fun r => IsMat r B m n fun b => M b + N b := by
  simp only [Tensor.add, zipWithB, ha.1, hc.1, if_true]
  refine Ret.ok ⟨rfl, fun b i j => ?_⟩
  rw [get3 rfl]
  simp [ha.data, hc.data]

theorem sub_mat {B m n : Nat} {a c : Tensor ℝ} {M N : Fin B → Matrix (Fin m) (Fin n) ℝ} (ha : IsMat a B m n M)
    (hc : IsMat c B m n N) : Ret (a.sub c) fun r => IsMat r B m n fun b => M b - N b := by
  simp only [Tensor.sub, zipWithB, ha.1, hc.1, if_true]
  refine Ret.ok ⟨rfl, fun b i j => ?_⟩
  rw [get3 rfl]
  simp [ha.data, hc.data]

theorem addInPlace_vec {B n : Nat} {a c : Tensor ℝ} {X Y : Fin B → Fin n → ℝ} (ha : IsVec a B n X)
    (hc : IsVec c B n Y) : Ret (a.addInPlace c) fun r => IsVec r B n fun b => X b + Y b :=
  (add_vec ha hc).bind fun r hr => by simp only [hr.1, ha.1, if_true]; exact Ret.ok hr

theorem addInPlace_mat {B m n : Nat} {a c : Tensor ℝ} {M N : Fin B → Matrix (Fin m) (Fin n) ℝ} (ha : IsMat a B m n M)
    (hc : IsMat c B m n N) : Ret (a.addInPlace c) fun r => IsMat r B m n fun b => M b + N b :=
  (add_mat ha hc).bind fun r hr => by simp only [hr.1, ha.1, if_true]; exact Ret.ok hr

/-! ### transposition -/

theorem transpose_mat {B m n : Nat} {a : Tensor ℝ} {M : Fin B → Matrix (Fin m) (Fin n) ℝ} (ha : IsMat a B m n M) :
    Ret a.transpose12 fun r => IsMat r B n m fun b => (M b)ᵀ := by
  have e : a.transpose12 = .ok (a.permute [0, 2, 1]) := by
    simp only [transpose12, movedim, ha.1]
    rfl
  rw [e]
  refine Ret.ok ⟨by simp [permute, ha.1], fun b i j => ?_⟩
  simp only [permute]
  rw [get_ofFn _ (by simp [ha.1])]
  simpa [List.range_succ, List.idxOf, List.findIdx, List.findIdx.go] using ha.2 b j i

/-! ### slices -/

theorem slice_vec {B n m lo : Nat} {a : Tensor ℝ} {X : Fin B → Fin n → ℝ} (ha : IsVec a B n X) (h : lo + m ≤ n) :
    Ret (a.slice 1 lo (lo + m)) fun r => IsVec r B m fun b i => X b ⟨lo + i, by omega⟩ := by
  simp only [slice, ha.1, List.getElem?_cons_succ, List.getElem?_cons_zero]
  have e1 : min lo n = lo := by omega
  have e2 : min (lo + m) n = lo + m := by omega
  have e3 : lo + m - lo = m := by omega
  simp only [e1, e2, e3, List.set]
  refine Ret.ok ⟨rfl, fun b i => ?_⟩
  rw [get_ofFn _ (by simp)]
  simp only [List.set, List.getD_cons_succ, List.getD_cons_zero]
  rw [add_comm (i : ℕ) lo]
  exact ha.2 b ⟨lo + i, by omega⟩

theorem slice_rows {B m n q lo : Nat} {a : Tensor ℝ} {M : Fin B → Matrix (Fin m) (Fin n) ℝ} (ha : IsMat a B m n M) (h : lo + q ≤ m) :
    Ret (a.slice 1 lo (lo + q)) fun r => IsMat r B q n fun b i j => M b ⟨lo + i, by omega⟩ j := by
  simp only [slice, ha.1, List.getElem?_cons_succ, List.getElem?_cons_zero]
  have e1 : min lo m = lo := by omega
  have e2 : min (lo + q) m = lo + q := by omega
  have e3 : lo + q - lo = q := by omega
  simp only [e1, e2, e3, List.set]
  refine Ret.ok ⟨rfl, fun b i j => ?_⟩
  rw [get_ofFn _ (by simp)]
  simp only [List.set, List.getD_cons_succ, List.getD_cons_zero]
  rw [add_comm (i : ℕ) lo]
  exact ha.2 b ⟨lo + i, by omega⟩ j

theorem slice_cols {B m n q lo : Nat} {a : Tensor ℝ} {M : Fin B → Matrix (Fin m) (Fin n) ℝ} (ha : IsMat a B m n M) (h : lo + q ≤ n) :
    Ret (a.slice 2 lo (lo + q)) fun r => IsMat r B m q fun b i j => M b i ⟨lo + j, by omega⟩ := by
  simp only [slice, ha.1, List.getElem?_cons_succ, List.getElem?_cons_zero]
  have e1 : min lo n = lo := by omega
  have e2 : min (lo + q) n = lo + q := by omega
  have e3 : lo + q - lo = q := by omega
  simp only [e1, e2, e3, List.set]
  refine Ret.ok ⟨rfl, fun b i j => ?_⟩
  rw [get_ofFn _ (by simp)]
  simp only [List.set, List.getD_cons_succ, List.getD_cons_zero]
  rw [add_comm (j : ℕ) lo]
  exact ha.2 b i ⟨lo + j, by omega⟩

/-! ### concatenation -/

theorem cat2_vec {B m n : Nat} {a c : Tensor ℝ} {X : Fin B → Fin m → ℝ} {Y : Fin B → Fin n → ℝ} (ha : IsVec a B m X)
    (hc : IsVec c B n Y) : Ret (cat2 a c 1) fun r => IsVec r B (m + n) fun b => Fin.append (X b) (Y b) := by
  simp only [cat2, ha.1, hc.1, List.getElem?_cons_succ, List.getElem?_cons_zero, List.set, if_true]
  refine Ret.ok ⟨rfl, fun b i => ?_⟩
  rw [get_ofFn _ (by simp)]
  simp only [List.set, List.getD_cons_succ, List.getD_cons_zero]
  refine Fin.addCases (fun i => ?_) (fun i => ?_) i
  · simp [ha.2]
  · simp [hc.2]

theorem cat2_cols {B m p q : Nat} {a c : Tensor ℝ} {M : Fin B → Matrix (Fin m) (Fin p) ℝ} {N : Fin B → Matrix (Fin m) (Fin q) ℝ}
    (ha : IsMat a B m p M) (hc : IsMat c B m q N) : Ret (cat2 a c 2) fun r => IsMat r B m (p + q) fun b => hcat (M b) (N b) := by
  simp only [cat2, ha.1, hc.1, List.getElem?_cons_succ, List.getElem?_cons_zero, List.set, if_true]
  refine Ret.ok ⟨rfl, fun b i j => ?_⟩
  rw [get_ofFn _ (by simp)]
  simp only [List.set, List.getD_cons_succ, List.getD_cons_zero]
  refine Fin.addCases (fun j => ?_) (fun j => ?_) j
  · simp [ha.2]
  · simp [hc.2]

theorem cat2_rows {B p q n : Nat} {a c : Tensor ℝ} {M : Fin B → Matrix (Fin p) (Fin n) ℝ} {N : Fin B → Matrix (Fin q) (Fin n) ℝ}
    (ha : IsMat a B p n M) (hc : IsMat c B q n N) : Ret (cat2 a c 1) fun r => IsMat r B (p + q) n fun b => vcat (M b) (N b) := by
  simp only [cat2, ha.1, hc.1, List.getElem?_cons_succ, List.getElem?_cons_zero, List.set, if_true]
  refine Ret.ok ⟨rfl, fun b i j => ?_⟩
  rw [get_ofFn _ (by simp)]
  simp only [List.set, List.getD_cons_succ, List.getD_cons_zero]
  refine Fin.addCases (fun i => ?_) (fun i => ?_) i
  · simp only [Fin.val_castAdd, i.2, if_true, vcat_left]; exact ha.2 b i j
  · simp only [Fin.val_natAdd, Nat.not_lt.2 (Nat.le_add_right p i), if_false, vcat_right, Nat.add_sub_cancel_left]; exact hc.2 b i j

/-- concatenation of batches of samples along dimension 1 is concatenation of the flattened samples -/
theorem cat2_batch {B a c n k : Nat} {s : List Nat} {x v : Tensor ℝ} {X : Fin B → Fin n → ℝ} {Y : Fin B → Fin k → ℝ}
    (hx : IsBatch x B (a :: s) n X) (hv : IsBatch v B (c :: s) k Y) (hn : size (a :: s) = n) (hk : size (c :: s) = k) :
    Ret (cat2 x v 1) fun r => IsBatch r B ((a + c) :: s) (n + k) fun b => Fin.append (X b) (Y b) := by
  simp only [cat2, hx.1, hv.1, List.getElem?_cons_succ, List.getElem?_cons_zero, List.set, if_true]
  refine Ret.ok ⟨rfl, fun b i => ?_⟩
  simp only [size_cons] at hn hk
  have hr : size ((a + c) :: s) = n + k := by rw [size_cons, Nat.add_mul, hn, hk]
  rw [ofFn_data]
  have hi := i.2
  have hlt : (i : ℕ) < size ((a + c) :: s) := by omega
  have hnk : 0 < n + k := by omega
  have e1 : ((b : ℕ) * (n + k) + i) / (n + k) = b := by
    rw [Nat.mul_comm, Nat.mul_add_div hnk, Nat.div_eq_of_lt hi]; simp
  have e2 : ((b : ℕ) * (n + k) + i) % (n + k) = i := by
    rw [Nat.mul_comm, Nat.mul_add_mod, Nat.mod_eq_of_lt hi]
  have eu : unravel (B :: (a + c) :: s) ((b : ℕ) * (n + k) + i) = (b : ℕ) :: (i : ℕ) / size s :: unravel s ((i : ℕ) % size s) := by
    rw [unravel, unravel, hr, e1, e2]
  simp only [eu, List.getD_cons_succ, List.getD_cons_zero, List.set, Tensor.get, hx.1, hv.1, ravel, size_cons, hn, hk]
  have hs : 0 < size s := by
    rcases Nat.eq_zero_or_pos (size s) with h | h
    · rw [h] at hn hk; simp at hn hk; omega
    · exact h
  have hmod : (i : ℕ) % size s < size s := Nat.mod_lt _ hs
  rw [ravel_unravel hmod]
  revert hlt hi e1 e2 eu hmod
  refine Fin.addCases (fun i => ?_) (fun i => ?_) i
  · intros
    have h : (i : ℕ) / size s < a := Nat.div_lt_of_lt_mul (by rw [Nat.mul_comm, hn]; exact i.2)
    simp only [Fin.val_castAdd, h, if_true, Fin.append_left]
    rw [← hx.2 b i, Nat.div_add_mod']
  · intros
    have h : ¬ (n + (i : ℕ)) / size s < a := by
      rw [not_lt, Nat.le_div_iff_mul_le hs, hn]; omega
    simp only [Fin.val_natAdd, h, if_false, Fin.append_right]
    rw [← hv.2 b i]
    congr 2
    have e : n + (i : ℕ) = i + size s * a := by rw [Nat.mul_comm, hn]; omega
    rw [e, Nat.add_mul_div_left _ _ hs, Nat.add_mul_mod_self_left, Nat.add_sub_cancel, Nat.div_add_mod']

/-! ### reshaping -/

theorem reshape_ret {t : Tensor ℝ} {s : List Nat} (h : size s = t.numel) : Ret (t.reshape s) fun r => r.shape = s ∧ r.data = t.data := by
  simp only [Tensor.reshape, h, if_true]; exact Ret.ok ⟨rfl, rfl⟩

theorem reshapeInfer_ret {t : Tensor ℝ} {pre : List Nat} {q : Nat} (hpre : 0 < size pre) (h : t.numel = size pre * q) :
    Ret (t.reshapeInfer pre []) fun r => r.shape = pre ++ [q] ∧ r.data = t.data := by
  simp only [reshapeInfer, size_nil, mul_one, h, Nat.ne_of_gt hpre, if_false, Nat.mul_mod_right, if_true,
    Nat.mul_div_cancel_left _ hpre]
  exact Ret.ok ⟨rfl, rfl⟩

end NNJ
