import Verif.Spec.Blocks
import Verif.Proofs.Tensor
import Verif.Proofs.ConvCore

/-! Forward substitution inverts the lower triangle. -/

namespace NNJ
namespace Torch
open Tensor Utils Matrix

theorem triCol_stable (L : Nat → Nat → ℝ) (j : Nat) {k : Nat} : ∀ {m : Nat}, k < m → triCol L j m k = triCol L j (k + 1) k
  | 0, h => absurd h (by omega)
  | m + 1, h => by
    by_cases hk : k = m
    · rw [hk]
    · rw [triCol, if_neg hk, triCol_stable L j (by omega)]

theorem triCol_eq (L : Nat → Nat → ℝ) (j n i : Nat) (hi : i < n) (hd : L i i ≠ 0) :
    (∑ k ∈ Finset.range (i + 1), L i k * triCol L j n k) = if i = j then 1 else 0 := by
  rw [Finset.sum_range_succ, triCol_stable L j hi, triCol, if_pos rfl, sumRange_range, mul_div_cancel₀ _ hd,
    Finset.sum_congr rfl (fun k hk => ?_), add_sub_cancel]
  rw [Finset.mem_range] at hk
  rw [triCol_stable L j (show k < n by omega), triCol_stable L j hk]

/-- the inverse of the lower triangle -/
noncomputable def triInv (n : Nat) (L : Nat → Nat → ℝ) : Matrix (Fin n) (Fin n) ℝ := fun i j => triCol L j n i

theorem lower_mul_triInv {n : Nat} (M : Matrix (Fin n) (Fin n) ℝ) (L : Nat → Nat → ℝ) (hL : ∀ i j : Fin n, L i j = M i j) (hd : ∀ i, M i i ≠ 0) :
    lowerTri M * triInv n L = 1 := by
  ext i j
  rw [Matrix.mul_apply, Matrix.one_apply]
  have h := triCol_eq L j n i i.2 (by rw [hL]; exact hd i)
  have e : (if (i : Nat) = j then (1 : ℝ) else 0) = if i = j then 1 else 0 := by
    simp only [Fin.ext_iff]
  rw [e] at h
  rw [← h]
  have h2 : ∑ k : Fin n, lowerTri M i k * triInv n L k j = ∑ k ∈ Finset.range n, if k ≤ i then L i k * triCol L j n k else 0 := by
    rw [Finset.sum_range]
    refine Finset.sum_congr rfl fun k _ => ?_
    simp only [lowerTri, triInv, ← hL, Fin.le_def]
    split <;> simp
  rw [h2, ← Finset.sum_filter]
  refine Finset.sum_congr ?_ fun _ _ => rfl
  ext k
  simp only [Finset.mem_filter, Finset.mem_range]
  have := i.2
  omega

theorem cholInv_inverse {n : Nat} (M : Matrix (Fin n) (Fin n) ℝ) (L : Nat → Nat → ℝ) (hL : ∀ i j : Fin n, L i j = M i j) (hd : ∀ i, M i i ≠ 0) :
    (Matrix.of fun i j : Fin n => cholInvEntry n L i j) * (lowerTri M * (lowerTri M)ᵀ) = 1 := by
  have h1 := lower_mul_triInv M L hL hd
  have h2 := mul_eq_one_comm.1 h1
  have e : (Matrix.of fun i j : Fin n => cholInvEntry n L i j) = (triInv n L)ᵀ * triInv n L := by
    ext i j
    rw [Matrix.mul_apply]
    show cholInvEntry n L i j = _
    rw [cholInvEntry, sumRange_eq]
    rfl
  rw [e, Matrix.mul_assoc, ← Matrix.mul_assoc (triInv n L), h2, Matrix.one_mul, ← Matrix.transpose_mul, h1, Matrix.transpose_one]

theorem split_index {n k a b : Nat} {i j : Fin n} (hk : k = b * (n * n) + a) (ha : a = i * n + j) :
    k / (n * n) = b ∧ k % (n * n) / n = i ∧ k % n = j := by
  have hn : 0 < n := i.pos
  have hlt : a < n * n := by
    have := i.2; have := j.2
    calc a = i * n + j := ha
      _ < i * n + n := by omega
      _ = (i + 1) * n := by ring
      _ ≤ n * n := Nat.mul_le_mul_right _ (by omega)
  have h1 : k / (n * n) = b := by
    rw [hk, Nat.add_comm, Nat.add_mul_div_right _ _ (Nat.mul_pos hn hn), Nat.div_eq_of_lt hlt, Nat.zero_add]
  have h2 : k % (n * n) = a := by
    rw [hk, Nat.add_comm, Nat.add_mul_mod_self_right, Nat.mod_eq_of_lt hlt]
  refine ⟨h1, ?_, ?_⟩
  · rw [h2, ha, Nat.add_comm, Nat.add_mul_div_right _ _ hn, Nat.div_eq_of_lt j.2, Nat.zero_add]
  · rw [hk, ha, show b * (n * n) + (i * n + j) = j + (b * n + i) * n by ring, Nat.add_mul_mod_self_right, Nat.mod_eq_of_lt j.2]

theorem size_reverse (s : List Nat) : size s.reverse = size s := by
  induction s with
  | nil => rfl
  | cons d s ih =>
    have happ : ∀ (a b : List Nat), size (a ++ b) = size a * size b := by
      intro a b
      induction a with
      | nil => simp [size]
      | cons x a ih => simp only [List.cons_append, size, ih, Nat.mul_assoc]
    rw [List.reverse_cons, happ, ih]
    simp only [size, Nat.mul_one, Nat.mul_comm]

theorem cholesky_shape {t : Tensor ℝ} {pre : List Nat} {n : Nat} {M : Fin (size pre) → Matrix (Fin n) (Fin n) ℝ} (h : IsMats t pre n M) :
    choleskyInverse t = if ∃ b i, M b i i = 0 then .error .shape
      else .ok ⟨t.shape, fun k => cholInvEntry n (blockGet t n (k / (n * n))) (k % (n * n) / n) (k % n)⟩ := by
  rw [choleskyInverse]
  have e : t.shape.reverse = n :: n :: pre.reverse := by rw [h.1]; simp
  rw [e]
  simp only [ne_eq, not_true_eq_false, if_false, size_reverse]
  refine if_congr ?_ rfl rfl
  simp only [List.any_eq_true, List.mem_range, decide_eq_true_eq]
  constructor
  · rintro ⟨b, hb, i, hi, h0⟩
    exact ⟨⟨b, hb⟩, ⟨i, hi⟩, by rw [← h.2]; exact h0⟩
  · rintro ⟨b, i, h0⟩
    exact ⟨b, b.2, i, i.2, by rw [blockGet, h.2]; exact h0⟩

theorem cholesky_ok {t : Tensor ℝ} {pre : List Nat} {n : Nat} {M : Fin (size pre) → Matrix (Fin n) (Fin n) ℝ} (h : IsMats t pre n M)
    (hd : ∀ b i, M b i i ≠ 0) :
    ∃ r R, choleskyInverse t = .ok r ∧ IsMats r pre n R ∧ ∀ b, R b * (lowerTri (M b) * (lowerTri (M b))ᵀ) = 1 := by
  refine ⟨⟨t.shape, fun k => cholInvEntry n (blockGet t n (k / (n * n))) (k % (n * n) / n) (k % n)⟩, fun b => Matrix.of fun i j => cholInvEntry n (blockGet t n b) i j, ?_, ⟨h.1, fun b i j => ?_⟩, fun b => ?_⟩
  · rw [cholesky_shape h, if_neg (by rintro ⟨b, i, h0⟩; exact hd b i h0)]
  · obtain ⟨h1, h2, h3⟩ := split_index (n := n) (k := b * (n * n) + i * n + j) (b := b) (i := i) (j := j) (Nat.add_assoc _ _ _) rfl
    show cholInvEntry n (blockGet t n (_ / (n * n))) (_ % (n * n) / n) (_ % n) = _
    rw [h1, h2, h3]
    rfl
  · exact cholInv_inverse (M b) (blockGet t n b) (fun i j => h.2 b i j) (hd b)

end Torch
end NNJ
