import Verif.Proofs.Cholesky

/-!
# C28: `invert_block_diagonal`
-/

namespace NNJ
namespace Props
open Utils Matrix

/-- `go` is the list comprehension -/
private theorem go_ok {rel : Tensor ℝ → Tensor ℝ → Prop} : ∀ (vs : List (PyVal ℝ)), (∀ v ∈ vs, ∃ r, invertBlockDiagonal v = .ok r ∧ Blockwise rel v r) →
    ∃ rs, invertBlockDiagonal.go vs = .ok rs ∧ ∃ hlen : vs.length = rs.length, ∀ (i : Nat) (h : i < vs.length), Blockwise rel vs[i] (rs[i]'(hlen ▸ h))
  | [], _ => ⟨[], rfl, rfl, fun i h => absurd h (by simp)⟩
  | v :: vs, hv => by
    obtain ⟨r, hr, hb⟩ := hv v (by simp)
    obtain ⟨rs, hrs, hlen, hbs⟩ := go_ok vs fun v' h => hv v' (by simp [h])
    refine ⟨r :: rs, by rw [invertBlockDiagonal.go, hr, hrs]; rfl, by simp [hlen], fun i h => ?_⟩
    cases i with
    | zero => exact hb
    | succ i => exact hbs i (by simpa using h)

/-- C28: if every tensor in the nested list is a batch of square matrices without zeros on the diagonal,
the call returns a nested list of the same structure in which each matrix is replaced by the inverse of
`L Lᵀ`, where `L` is its lower triangle. -/
theorem C28_blockwise {v : PyVal ℝ} (h : Leaves IsFactors v) : ∃ r, invertBlockDiagonal v = .ok r ∧ Blockwise InverseOfLLt v r := by
  induction h with
  | tensor ht =>
    obtain ⟨pre, n, M, hM, hd⟩ := ht
    obtain ⟨r, R, hr, hR, hinv⟩ := Torch.cholesky_ok hM hd
    exact ⟨.tensor r, by rw [invertBlockDiagonal, hr]; rfl, .tensor ⟨pre, n, M, R, hM, hd, hR, hinv⟩⟩
  | list _ ih =>
    obtain ⟨rs, hrs, hlen, hb⟩ := go_ok _ ih
    exact ⟨.list rs, by rw [invertBlockDiagonal, hrs]; rfl, .list hlen hb⟩

/-- C28: otherwise the call raises. -/
theorem C28_raises {v : PyVal ℝ} (h : BadLeaf v) : ∃ e, invertBlockDiagonal v = .error e := by
  induction h with
  | none => exact ⟨_, rfl⟩
  | singular hM h0 => exact ⟨.shape, by rw [invertBlockDiagonal, Torch.cholesky_shape hM, if_pos ⟨_, _, h0⟩]; rfl⟩
  | @notSquare t hns =>
    refine ⟨.shape, ?_⟩
    have : Torch.choleskyInverse t = .error .shape := by
      rw [Torch.choleskyInverse]
      rcases hs : t.shape.reverse with _ | ⟨n, _ | ⟨m, pre⟩⟩
      · rfl
      · rfl
      · refine if_pos fun hnm => hns ⟨pre.reverse, n, ?_⟩
        have := congrArg List.reverse hs
        rw [List.reverse_reverse] at this
        rw [this, hnm]
        simp
    rw [invertBlockDiagonal, this]
    rfl
  | @list vs v hv _ ih =>
    obtain ⟨e, he⟩ := ih
    have : ∃ e, invertBlockDiagonal.go vs = .error e := by
      induction vs with
      | nil => simp at hv
      | cons v' vs ih' =>
        rw [invertBlockDiagonal.go]
        rcases hr : invertBlockDiagonal v' with e' | r
        · exact ⟨e', rfl⟩
        · rcases List.mem_cons.1 hv with rfl | hv
          · rw [he] at hr; cases hr
          · obtain ⟨e', h'⟩ := ih' hv
            exact ⟨e', by rw [h']; rfl⟩
    obtain ⟨e', h'⟩ := this
    exact ⟨e', by rw [invertBlockDiagonal, h']; rfl⟩

/-- C28: the matrix computed for a block `M` is the inverse of `M` exactly when `L Lᵀ = M`. -/
theorem C28_inverse_iff {t : Tensor ℝ} {pre : List Nat} {n : Nat} {M : Fin (size pre) → Matrix (Fin n) (Fin n) ℝ} (hM : IsMats t pre n M)
    (hd : ∀ b i, M b i i ≠ 0) :
    ∃ r R, invertBlockDiagonal (.tensor t) = .ok (.tensor r) ∧ IsMats r pre n R ∧
      ∀ b, R b * M b = 1 ↔ lowerTri (M b) * (lowerTri (M b))ᵀ = M b := by
  obtain ⟨r, R, hr, hR, hinv⟩ := Torch.cholesky_ok hM hd
  refine ⟨r, R, by rw [invertBlockDiagonal, hr]; rfl, hR, fun b => ⟨fun h => ?_, fun h => by rw [← hinv b, h]⟩⟩
  have h1 := mul_eq_one_comm.1 (hinv b)
  calc lowerTri (M b) * (lowerTri (M b))ᵀ = lowerTri (M b) * (lowerTri (M b))ᵀ * (R b * M b) := by rw [h, Matrix.mul_one]
    _ = M b := by rw [← Matrix.mul_assoc, h1, Matrix.one_mul]

/-- C28: given Cholesky factors (lower triangular matrices) `L`, the result is the inverse of `L Lᵀ`. -/
theorem C28_factor {t : Tensor ℝ} {pre : List Nat} {n : Nat} {L : Fin (size pre) → Matrix (Fin n) (Fin n) ℝ} (hL : IsMats t pre n L)
    (hd : ∀ b i, L b i i ≠ 0) (hlow : ∀ b i j, i < j → L b i j = 0) :
    ∃ r R, invertBlockDiagonal (.tensor t) = .ok (.tensor r) ∧ IsMats r pre n R ∧ ∀ b, R b = (L b * (L b)ᵀ)⁻¹ := by
  obtain ⟨r, R, hr, hR, hinv⟩ := Torch.cholesky_ok hL hd
  refine ⟨r, R, by rw [invertBlockDiagonal, hr]; rfl, hR, fun b => ?_⟩
  have e : lowerTri (L b) = L b := by
    ext i j
    rw [lowerTri]
    split
    · rfl
    · exact (hlow b i j (by omega)).symm
  have h := hinv b
  rw [e] at h
  exact (Matrix.inv_eq_left_inv h).symm

/-- the factor `[[1, 0], [3, 2]]` -/
example : ∃ r R, invertBlockDiagonal (.tensor ⟨[2, 2], fun i => ![1, 0, 3, 2] (Fin.ofNat 4 i)⟩) = .ok (.tensor r) ∧ IsMats r [] 2 R ∧
    ∀ b, R b = (!![1, 0; 3, 2] * !![1, 0; 3, 2]ᵀ)⁻¹ :=
  C28_factor (L := fun _ => !![1, 0; 3, 2]) ⟨rfl, fun b i j => by fin_cases b; fin_cases i <;> fin_cases j <;> rfl⟩
    (fun b i => by fin_cases i <;> simp) (fun b i j h => by fin_cases i <;> fin_cases j <;> simp_all)

/-- two blocks, one of them inside a nested list: `[[tensor of shape [1, 1]], tensor of shape [1, 2, 2]]` -/
noncomputable def exBlocks : PyVal ℝ := .list [.list [.tensor ⟨[1, 1], fun _ => 2⟩], .tensor ⟨[1, 2, 2], fun i => 1 + i⟩]

theorem exBlocks_factors : Leaves IsFactors exBlocks := by
  refine .list fun v hv => ?_
  simp only [List.mem_cons, List.not_mem_nil, or_false] at hv
  rcases hv with rfl | rfl
  · refine .list fun v hv => ?_
    rw [List.mem_singleton.1 hv]
    exact .tensor ⟨[], 1, fun _ _ _ => 2, ⟨rfl, fun _ _ _ => rfl⟩, fun _ _ => by norm_num⟩
  · refine .tensor ⟨[1], 2, fun b i j => 1 + ((b * (2 * 2) + i * 2 + j : Nat) : ℝ), ⟨rfl, fun _ _ _ => rfl⟩, fun b i => ?_⟩
    positivity

example : ∃ r, invertBlockDiagonal exBlocks = .ok r ∧ Blockwise InverseOfLLt exBlocks r := C28_blockwise exBlocks_factors

example : ∃ e, invertBlockDiagonal (.list [exBlocks, .tensor ⟨[2, 3], fun _ => 1⟩]) = .error e :=
  C28_raises (.list (v := .tensor ⟨[2, 3], fun _ => 1⟩) (by simp) (.notSquare (by
    rintro ⟨pre, n, h⟩
    have := congrArg List.reverse h
    simp at this
    omega)))

/-- C28: for the symmetric positive definite block `[[2]]` the result is not the inverse. -/
theorem C28_wrong : ∃ r R, invertBlockDiagonal (.tensor ⟨[1, 1], fun _ => 2⟩) = .ok (.tensor r) ∧ IsMats r [] 1 R ∧
    ∀ b, R b * (Matrix.of fun _ _ => 2) ≠ 1 := by
  obtain ⟨r, R, hr, hR, h⟩ := C28_inverse_iff (t := ⟨[1, 1], fun _ => 2⟩) (pre := []) (n := 1) (M := fun _ => Matrix.of fun _ _ => (2 : ℝ))
    ⟨rfl, fun _ _ _ => rfl⟩ (fun _ _ => by norm_num [Matrix.of_apply])
  refine ⟨r, R, hr, hR, fun b hb => ?_⟩
  have h1 := congrFun (congrFun ((h b).1 hb) 0) 0
  simp [Matrix.mul_apply, lowerTri] at h1

end Props
end NNJ
