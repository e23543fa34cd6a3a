import Verif.Proofs.NetFacts
import Mathlib.LinearAlgebra.Matrix.PosDef
import Mathlib.Algebra.Order.Star.Real

/-! Keeping only the per-layer blocks of a metric preserves symmetry and semidefiniteness. -/

namespace NNJ
open Matrix

theorem posSemidef_conj {k n : Nat} {Z : Matrix (Fin k) (Fin k) ℝ} (hZ : Z.PosSemidef) (J : Matrix (Fin k) (Fin n) ℝ) :
    (Jᵀ * Z * J).PosSemidef := by
  have := hZ.conjTranspose_mul_mul_same J
  rwa [conjTranspose_eq_transpose_of_trivial] at this

theorem posSemidef_conj' {k n : Nat} {Z : Matrix (Fin n) (Fin n) ℝ} (hZ : Z.PosSemidef) (J : Matrix (Fin k) (Fin n) ℝ) :
    (J * Z * Jᵀ).PosSemidef := by
  have := hZ.mul_mul_conjTranspose_same J
  rwa [conjTranspose_eq_transpose_of_trivial] at this

theorem isSymm_conj {k n : Nat} {Z : Matrix (Fin k) (Fin k) ℝ} (hZ : Z.IsSymm) (J : Matrix (Fin k) (Fin n) ℝ) :
    (Jᵀ * Z * J).IsSymm := by
  rw [Matrix.IsSymm] at *
  rw [transpose_mul, transpose_mul, transpose_transpose, hZ, Matrix.mul_assoc]

theorem isSymm_conj' {k n : Nat} {Z : Matrix (Fin n) (Fin n) ℝ} (hZ : Z.IsSymm) (J : Matrix (Fin k) (Fin n) ℝ) :
    (J * Z * Jᵀ).IsSymm := by
  rw [Matrix.IsSymm] at *
  rw [transpose_mul, transpose_mul, transpose_transpose, hZ, Matrix.mul_assoc]

variable {n l k p q : Nat}

theorem mask_comp (S1 : Sem n l p) (S2 : Sem l k q) (Z : Matrix (Fin (p + q)) (Fin (p + q)) ℝ) :
    (S1.comp S2).mask Z = (hcat 1 0 : Matrix (Fin p) (Fin (p + q)) ℝ)ᵀ * S1.mask (blockUL Z) * (hcat 1 0 : Matrix (Fin p) (Fin (p + q)) ℝ) +
      (hcat 0 1 : Matrix (Fin q) (Fin (p + q)) ℝ)ᵀ * S2.mask (blockLR Z) * (hcat 0 1 : Matrix (Fin q) (Fin (p + q)) ℝ) := by
  ext i j
  rw [Matrix.add_apply, Matrix.mul_apply, Matrix.mul_apply]
  simp only [Matrix.mul_apply, transpose_apply]
  refine Fin.addCases (fun i => ?_) (fun i => ?_) i <;> refine Fin.addCases (fun j => ?_) (fun j => ?_) j <;>
    simp [hcat, Sem.mask, Sem.comp, blockUL, blockLR, Fin.append_left, Fin.append_right, Matrix.one_apply]
  · rw [Finset.sum_eq_single i] <;> simp +contextual
  · rw [Finset.sum_eq_single i] <;> simp +contextual

def Sem.MaskPSD (S : Sem n k p) : Prop := ∀ Z, Z.PosSemidef → (S.mask Z).PosSemidef
def Sem.MaskSymm (S : Sem n k p) : Prop := ∀ Z, Z.IsSymm → (S.mask Z).IsSymm

theorem blockUL_psd {Z : Matrix (Fin (p + q)) (Fin (p + q)) ℝ} (h : Z.PosSemidef) : (blockUL Z).PosSemidef := h.submatrix (Fin.castAdd q)
theorem blockLR_psd {Z : Matrix (Fin (p + q)) (Fin (p + q)) ℝ} (h : Z.PosSemidef) : (blockLR Z).PosSemidef := h.submatrix (Fin.natAdd p)

theorem Sem.MaskPSD.comp {S1 : Sem n l p} {S2 : Sem l k q} (h1 : S1.MaskPSD) (h2 : S2.MaskPSD) : (S1.comp S2).MaskPSD := by
  intro Z hZ
  rw [mask_comp]
  exact (posSemidef_conj (h1 _ (blockUL_psd hZ)) _).add (posSemidef_conj (h2 _ (blockLR_psd hZ)) _)

theorem Sem.MaskSymm.comp {S1 : Sem n l p} {S2 : Sem l k q} (h1 : S1.MaskSymm) (h2 : S2.MaskSymm) : (S1.comp S2).MaskSymm := by
  intro Z hZ
  rw [mask_comp]
  have e : ∀ i j, Z i j = Z j i := fun i j => hZ.apply j i
  refine (isSymm_conj (h1 _ ?_) _).add (isSymm_conj (h2 _ ?_) _)
  · ext i j; exact e _ _
  · ext i j; exact e _ _

theorem mask_of_same {S : Sem n k p} (h : ∀ i j, S.same i j = true) (Z : Matrix (Fin p) (Fin p) ℝ) : S.mask Z = Z := by
  ext i j; simp [Sem.mask, h]

mutual
theorem Net.maskPSD : {s s' : List Nat} → {n k p : Nat} → (N : Net s n s' k p) → N.sem.MaskPSD ∧ N.sem.MaskSymm
  | _, _, _, _, _, .linear _ _ _ _ _ _ _ => by
    simp only [Net.sem]
    exact ⟨fun Z h => by rw [mask_of_same fun _ _ => rfl]; exact h, fun Z h => by rw [mask_of_same fun _ _ => rfl]; exact h⟩
  | _, _, _, _, _, .act _ _ _ _ _ _ => by
    simp only [Net.sem]
    exact ⟨fun Z h => by rw [mask_of_same fun _ _ => rfl]; exact h, fun Z h => by rw [mask_of_same fun _ _ => rfl]; exact h⟩
  | _, _, _, _, _, .flatten _ _ _ _ _ => by
    simp only [Net.sem]
    exact ⟨fun Z h => by rw [mask_of_same fun _ _ => rfl]; exact h, fun Z h => by rw [mask_of_same fun _ _ => rfl]; exact h⟩
  | _, _, _, _, _, .reshape _ _ _ _ _ _ _ _ _ => by
    simp only [Net.sem]
    exact ⟨fun Z h => by rw [mask_of_same fun _ _ => rfl]; exact h, fun Z h => by rw [mask_of_same fun _ _ => rfl]; exact h⟩
  | _, _, _, _, _, .l2norm _ _ _ _ _ _ _ => by
    simp only [Net.sem]
    exact ⟨fun Z h => by rw [mask_of_same fun _ _ => rfl]; exact h, fun Z h => by rw [mask_of_same fun _ _ => rfl]; exact h⟩
  | _, _, _, _, _, .conv _ _ _ _ => by
    simp only [Net.sem]
    exact ⟨fun Z h => by rw [mask_of_same fun _ _ => rfl]; exact h, fun Z h => by rw [mask_of_same fun _ _ => rfl]; exact h⟩
  | _, _, _, _, _, .upsample _ _ _ _ _ _ _ _ _ => by
    simp only [Net.sem]
    exact ⟨fun Z h => by rw [mask_of_same fun _ _ => rfl]; exact h, fun Z h => by rw [mask_of_same fun _ _ => rfl]; exact h⟩
  | _, _, _, _, _, .maxpool _ _ => by
    simp only [Net.sem]
    exact ⟨fun Z h => by rw [mask_of_same fun _ _ => rfl]; exact h, fun Z h => by rw [mask_of_same fun _ _ => rfl]; exact h⟩
  | _, _, _, _, _, .seq id c => by simp only [Net.sem]; exact c.maskPSD
  | _, _, _, _, _, .skip id fid ch => by simp only [Net.sem]; exact ch.maskPSD
theorem Chain.maskPSD : {s s' : List Nat} → {n k p l : Nat} → (c : Chain s n s' k p l) → c.sem.MaskPSD ∧ c.sem.MaskSymm
  | _, _, _, _, _, _, .nil _ _ _ _ => by
    simp only [Chain.sem]
    exact ⟨fun Z h => by rw [mask_of_same fun _ _ => rfl]; exact h, fun Z h => by rw [mask_of_same fun _ _ => rfl]; exact h⟩
  | _, _, _, _, _, _, .snoc c m => by
    simp only [Chain.sem]
    exact ⟨c.maskPSD.1.comp m.maskPSD.1, c.maskPSD.2.comp m.maskPSD.2⟩
end

end NNJ
