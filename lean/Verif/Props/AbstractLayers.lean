import Verif.Proofs.AbstractLayers
import Mathlib.LinearAlgebra.Matrix.Notation
import Mathlib.LinearAlgebra.Matrix.Symmetric
import Mathlib.Tactic.NormNum

/-!
# C29, C30: the default products of user-defined layers

A custom layer is a pair `forward`, `jacobian`; the products are those inherited from
`AbstractJacobian` (C29) or `AbstractDiagonalJacobian` (C30).
-/

namespace NNJ
namespace Props
open Tensor Matrix

section C29
variable {B m n q : Nat} {fwd : Tensor ℝ → Res (Tensor ℝ)} {jac : AbstractJacobian.Jac ℝ}
  {x Jt : Tensor ℝ} {val : Option (Tensor ℝ)} {wrt : Wrt} {J : Fin B → Matrix (Fin m) (Fin n) ℝ}

/-- C29: `jvp` of a layer whose `jacobian` returns the matrices `J b` is `J b *ᵥ v b`. -/
theorem C29_jvp (hjac : jac x val wrt = .ok (some Jt)) (hJ : IsMat Jt B m n J)
    {v : Tensor ℝ} {V : Fin B → Fin n → ℝ} (hv : IsVec v B n V) :
    ∃ r, (AbstractJacobian.defaults fwd jac).jvp x val v wrt = .ok (some r) ∧
      IsVec r B m fun b => J b *ᵥ V b := by
  refine Ret.exists_some ?_
  simp only [AbstractJacobian.defaults, AbstractJacobian.jvp, hjac, Res.bind_ok]
  exact (ein_bij_bj hJ hv).some

/-- C29: `jmp` is `J b * M b`. -/
theorem C29_jmp (hjac : jac x val wrt = .ok (some Jt)) (hJ : IsMat Jt B m n J)
    {A : Tensor ℝ} {M : Fin B → Matrix (Fin n) (Fin q) ℝ} (hA : IsMat A B n q M) :
    ∃ r, (AbstractJacobian.defaults fwd jac).jmp x val (some A) wrt = .ok (some r) ∧
      IsMat r B m q fun b => J b * M b := by
  refine Ret.exists_some ?_
  simp only [AbstractJacobian.defaults, AbstractJacobian.jmp, hjac, Res.bind_ok, needR]
  exact (ein_bij_bjk hJ hA).some

/-- C29: `vjp` is `v b ᵥ* J b`. -/
theorem C29_vjp (hjac : jac x val wrt = .ok (some Jt)) (hJ : IsMat Jt B m n J)
    {v : Tensor ℝ} {V : Fin B → Fin m → ℝ} (hv : IsVec v B m V) :
    ∃ r, (AbstractJacobian.defaults fwd jac).vjp x val v wrt = .ok (some r) ∧
      IsVec r B n fun b => V b ᵥ* J b := by
  refine Ret.exists_some ?_
  simp only [AbstractJacobian.defaults, AbstractJacobian.vjp, hjac, Res.bind_ok]
  exact (ein_bi_bij hv hJ).some

/-- C29: `mjp` is `M b * J b`. -/
theorem C29_mjp (hjac : jac x val wrt = .ok (some Jt)) (hJ : IsMat Jt B m n J)
    {A : Tensor ℝ} {M : Fin B → Matrix (Fin q) (Fin m) ℝ} (hA : IsMat A B q m M) :
    ∃ r, (AbstractJacobian.defaults fwd jac).mjp x val (some A) wrt = .ok (some r) ∧
      IsMat r B q n fun b => M b * J b := by
  refine Ret.exists_some ?_
  simp only [AbstractJacobian.defaults, AbstractJacobian.mjp, hjac, Res.bind_ok, needR]
  exact (ein_bij_bjk hA hJ).some

/-- C29: all four modes of `jmjTp` are exact: `J b * M b * (J b)ᵀ`. -/
theorem C29_jmjTp (hjac : jac x val wrt = .ok (some Jt)) (hJ : IsMat Jt B m n J) (fromDiag toDiag : Bool)
    {A : Tensor ℝ} {M : Fin B → Matrix (Fin n) (Fin n) ℝ} (hA : MetricArg fromDiag A B n M) :
    ∃ r, (AbstractJacobian.defaults fwd jac).jmjTp x val (some A) wrt fromDiag toDiag false = .ok (some r) ∧
      MetricOut toDiag r B m fun b => J b * M b * (J b)ᵀ :=
  (AbstractJacobian.jmjTp_core hjac hJ hA).exists_some

/-- C29: `jTmjp` is exact when no diagonal flag is set: `(J b)ᵀ * M b * J b`. -/
theorem C29_jTmjp_full (hjac : jac x val wrt = .ok (some Jt)) (hJ : IsMat Jt B m n J)
    {A : Tensor ℝ} {M : Fin B → Matrix (Fin m) (Fin m) ℝ} (hA : IsMat A B m m M) :
    ∃ r, (AbstractJacobian.defaults fwd jac).jTmjp x val (some A) wrt false false false = .ok (some r) ∧
      IsMat r B n n fun b => (J b)ᵀ * M b * J b := by
  refine Ret.exists_some ?_
  simp only [AbstractJacobian.defaults, AbstractJacobian.jTmjp, hjac, Res.bind_ok, needR]
  exact (ein_bji_bjk_bkl hJ hA).some

/-- C29: with a diagonal flag, `jTmjp` raises as soon as input and output size differ (and neither
is 1), whatever the metric. -/
theorem C29_jTmjp_diag_raises (hjac : jac x val wrt = .ok (some Jt)) (hJ : IsMat Jt B m n J)
    (fromDiag toDiag : Bool) (hflag : fromDiag = true ∨ toDiag = true) (hmn : m ≠ n) (hm : m ≠ 1) (hn : n ≠ 1)
    {A : Tensor ℝ} {M : Fin B → Matrix (Fin m) (Fin m) ℝ} (hA : MetricArg fromDiag A B m M) :
    (AbstractJacobian.defaults fwd jac).jTmjp x val (some A) wrt fromDiag toDiag false = .error .shape := by
  simp only [AbstractJacobian.defaults, AbstractJacobian.jTmjp, hjac, Res.bind_ok, needR]
  cases fromDiag <;> cases toDiag
  · simp at hflag
  · have hs := hA.1
    exact congrArg (fun r => some <$> r) (einsum_mismatch 'j' n m (by simp [labelPairs, hJ.1])
      (by simp [labelPairs, hs]) hn hm hmn.symm)
  · obtain ⟨d, hd, -⟩ := hA
    exact congrArg (fun r => some <$> r) (einsum_mismatch 'j' n m (by simp [labelPairs, hJ.1])
      (by simp [labelPairs, hd.1]) hn hm hmn.symm)
  · obtain ⟨d, hd, -⟩ := hA
    exact congrArg (fun r => some <$> r) (einsum_mismatch 'j' n m (by simp [labelPairs, hJ.1])
      (by simp [labelPairs, hd.1]) hn hm hmn.symm)

/-- C29: with a diagonal flag and equal sizes, `jTmjp` computes `J * M * J` instead of `Jᵀ * M * J`. -/
theorem C29_jTmjp_diag_value {J : Fin B → Matrix (Fin n) (Fin n) ℝ} (hjac : jac x val wrt = .ok (some Jt))
    (hJ : IsMat Jt B n n J) (fromDiag toDiag : Bool) (hflag : fromDiag = true ∨ toDiag = true)
    {A : Tensor ℝ} {M : Fin B → Matrix (Fin n) (Fin n) ℝ} (hA : MetricArg fromDiag A B n M) :
    ∃ r, (AbstractJacobian.defaults fwd jac).jTmjp x val (some A) wrt fromDiag toDiag false = .ok (some r) ∧
      MetricOut toDiag r B n fun b => J b * M b * J b :=
  (AbstractJacobian.jTmjp_core hjac hJ hA hflag).exists_some

/-- C29: `diag_backprop=True` sets both diagonal flags, whatever they were: `jmjTp` is then exact, `jTmjp` is the diagonal of
`J b * diag(d b) * J b` or raises. -/
theorem C29_diag_backprop (hjac : jac x val wrt = .ok (some Jt)) (hJ : IsMat Jt B m n J) (fromDiag toDiag : Bool) :
    (∀ (A : Tensor ℝ) (d : Fin B → Fin n → ℝ), IsVec A B n d →
      ∃ r, (AbstractJacobian.defaults fwd jac).jmjTp x val (some A) wrt fromDiag toDiag true = .ok (some r) ∧
        IsVec r B m fun b => diag (J b * diagonal (d b) * (J b)ᵀ)) ∧
    (∀ (A : Tensor ℝ) (d : Fin B → Fin m → ℝ), IsVec A B m d →
      (m ≠ n → m ≠ 1 → n ≠ 1 →
        (AbstractJacobian.defaults fwd jac).jTmjp x val (some A) wrt fromDiag toDiag true = .error .shape) ∧
      ∀ h : m = n, ∃ r, (AbstractJacobian.defaults fwd jac).jTmjp x val (some A) wrt fromDiag toDiag true = .ok (some r) ∧
        IsVec r B n fun b => diag ((J b).submatrix (Fin.cast h.symm) id * diagonal (fun i => d b (Fin.cast h.symm i)) *
          (J b).submatrix (Fin.cast h.symm) id)) := by
  refine ⟨fun A d hA => ?_, fun A d hA => ⟨fun h1 h2 h3 => ?_, fun h => ?_⟩⟩
  · exact C29_jmjTp (fwd := fwd) hjac hJ true true (M := fun b => diagonal (d b)) ⟨d, hA, fun b => rfl⟩
  · exact C29_jTmjp_diag_raises (fwd := fwd) hjac hJ true true (.inl rfl) h1 h2 h3 (M := fun b => diagonal (d b)) ⟨d, hA, fun b => rfl⟩
  · subst h
    exact C29_jTmjp_diag_value (fwd := fwd) hjac hJ true true (.inl rfl) (M := fun b => diagonal (d b)) ⟨d, hA, fun b => rfl⟩

-- the hypotheses hold, with flags unset: a Jacobian with two rows and three columns
example (fwd : Tensor ℝ → Res (Tensor ℝ)) (x : Tensor ℝ) :
    (AbstractJacobian.defaults fwd fun _ _ _ => .ok (some (ones [1, 2, 3]))).jTmjp x none (some (ones [1, 2])) .input false false true
      = .error .shape :=
  ((C29_diag_backprop (fwd := fwd) (jac := fun _ _ _ => .ok (some (ones [1, 2, 3]))) (x := x) (val := none) (wrt := .input)
    (J := fun _ _ _ => 1) rfl ⟨rfl, fun _ _ _ => rfl⟩ false false).2 (ones [1, 2]) (fun _ _ => 1) ⟨rfl, fun _ _ => rfl⟩).1
    (by decide) (by decide) (by decide)

/-- C29: for symmetric `J` all four modes of `jTmjp` are exact. -/
theorem C29_jTmjp_symm {J : Fin B → Matrix (Fin n) (Fin n) ℝ} (hjac : jac x val wrt = .ok (some Jt))
    (hJ : IsMat Jt B n n J) (hsymm : ∀ b, (J b).IsSymm) (fromDiag toDiag : Bool)
    {A : Tensor ℝ} {M : Fin B → Matrix (Fin n) (Fin n) ℝ} (hA : MetricArg fromDiag A B n M) :
    ∃ r, (AbstractJacobian.defaults fwd jac).jTmjp x val (some A) wrt fromDiag toDiag false = .ok (some r) ∧
      MetricOut toDiag r B n fun b => (J b)ᵀ * M b * J b := by
  have e : (fun b => (J b)ᵀ * M b * J b) = fun b => J b * M b * J b := funext fun b => by rw [(hsymm b).eq]
  by_cases hflag : fromDiag = true ∨ toDiag = true
  · rw [e]; exact C29_jTmjp_diag_value hjac hJ fromDiag toDiag hflag hA
  · obtain ⟨rfl, rfl⟩ : fromDiag = false ∧ toDiag = false := by
      cases fromDiag <;> cases toDiag <;> simp_all
    exact C29_jTmjp_full hjac hJ hA

end C29

/-- The layer `(x1, x2) ↦ (x2, 0)`: its Jacobian `[[0, 1], [0, 0]]` is not symmetric. -/
def shiftJac : AbstractJacobian.Jac ℝ := fun _ _ _ =>
  .ok (some (ofFn [1, 2, 2] fun idx => if idx = [0, 0, 1] then 1 else 0))

theorem shiftJac_isMat :
    IsMat (ofFn [1, 2, 2] fun idx => if idx = [0, 0, 1] then 1 else 0) 1 2 2 (fun _ => !![0, 1; 0, 0]) := by
  refine ⟨rfl, fun b i j => ?_⟩
  rw [get_ofFn _ (by simp)]
  fin_cases b; fin_cases i <;> fin_cases j <;> simp

/-- C29: the diagonal modes are wrong for a non-symmetric Jacobian.  For `J = [[0,1],[0,0]]` and the
identity metric, `Jᵀ J = diag(0, 1)`, but `jTmjp(..., from_diag=True, to_diag=True)` on the ones
vector returns `(0, 0)`. -/
theorem C29_jTmjp_diag_wrong (fwd : Tensor ℝ → Res (Tensor ℝ)) (x : Tensor ℝ) :
    ∃ r, (AbstractJacobian.defaults fwd shiftJac).jTmjp x none (some (ones [1, 2])) .input true true false
        = .ok (some r) ∧
      IsVec r 1 2 (fun _ => ![0, 0]) ∧
      diag ((!![0, 1; 0, 0] : Matrix (Fin 2) (Fin 2) ℝ)ᵀ * 1 * !![0, 1; 0, 0]) = ![0, 1] := by
  have hA : MetricArg true (ones [1, 2] : Tensor ℝ) 1 2 (fun _ => 1) :=
    ⟨fun _ _ => 1, ⟨rfl, fun b i => rfl⟩, fun b => by simp⟩
  obtain ⟨r, hr, hM⟩ := C29_jTmjp_diag_value (fwd := fwd) (jac := shiftJac) (x := x) (val := none) (wrt := .input)
    rfl shiftJac_isMat true true (by simp) hA
  refine ⟨r, hr, ?_, ?_⟩
  · refine IsVec.congr hM fun b i => ?_
    fin_cases i <;> simp [diag, Matrix.mul_apply, Fin.sum_univ_two]
  · funext i
    fin_cases i <;> simp [diag, Matrix.mul_apply, Fin.sum_univ_two]

/-- a 3 x 2 Jacobian, for which `C29_jTmjp_diag_raises` applies -/
example : ∃ (jac : AbstractJacobian.Jac ℝ) (Jt : Tensor ℝ) (J : Fin 1 → Matrix (Fin 3) (Fin 2) ℝ),
    jac (ones [1, 2]) none .input = .ok (some Jt) ∧ IsMat Jt 1 3 2 J ∧ J 0 0 0 ≠ 0 ∧ 3 ≠ 2 ∧
    (AbstractJacobian.defaults (fun x => .ok x) jac).jTmjp (ones [1, 2]) none (some (ones [1, 3])) .input
      true true false = .error .shape := by
  have hm : IsMat (ones [1, 3, 2] : Tensor ℝ) 1 3 2 (fun _ _ _ => 1) := ⟨rfl, fun b i j => rfl⟩
  refine ⟨fun _ _ _ => .ok (some (ones [1, 3, 2])), ones [1, 3, 2], fun _ _ _ => 1, rfl, hm, by norm_num,
    by norm_num, ?_⟩
  exact C29_jTmjp_diag_raises rfl hm true true (by simp) (by norm_num) (by norm_num) (by norm_num)
    (M := fun _ => diagonal fun _ => 1) ⟨fun _ _ => 1, ⟨rfl, fun b i => rfl⟩, fun b => rfl⟩

section C30
variable {B n q : Nat} {fwd : Tensor ℝ → Res (Tensor ℝ)} {jac : AbstractDiagonal.Jac ℝ}
  {x Dt : Tensor ℝ} {val : Option (Tensor ℝ)} {wrt : Wrt} {d : Fin B → Fin n → ℝ}

/-- C30: `jvp` of a layer whose `jacobian(diag=True)` returns the vectors `d b` is `diag(d b) *ᵥ v b`. -/
theorem C30_jvp (hjac : jac x val wrt true = .ok (some Dt)) (hD : IsVec Dt B n d)
    {v : Tensor ℝ} {V : Fin B → Fin n → ℝ} (hv : IsVec v B n V) :
    ∃ r, (AbstractDiagonal.defaults fwd jac).jvp x val v wrt = .ok (some r) ∧
      IsVec r B n fun b => diagonal (d b) *ᵥ V b := by
  refine Ret.exists_some ?_
  simp only [AbstractDiagonal.defaults, AbstractDiagonal.jvp, hjac, Res.bind_ok]
  exact (ein_bj_bj hD hv).some

/-- C30: `jmp` is `diag(d b) * M b`. -/
theorem C30_jmp (hjac : jac x val wrt true = .ok (some Dt)) (hD : IsVec Dt B n d)
    {A : Tensor ℝ} {M : Fin B → Matrix (Fin n) (Fin q) ℝ} (hA : IsMat A B n q M) :
    ∃ r, (AbstractDiagonal.defaults fwd jac).jmp x val (some A) wrt = .ok (some r) ∧
      IsMat r B n q fun b => diagonal (d b) * M b := by
  refine Ret.exists_some ?_
  simp only [AbstractDiagonal.defaults, AbstractDiagonal.jmp, hjac, Res.bind_ok, hA.1]
  exact (ein_bi_bij_bij hD hA).some

/-- C30: `vjp` is `v b ᵥ* diag(d b)`. -/
theorem C30_vjp (hjac : jac x val wrt true = .ok (some Dt)) (hD : IsVec Dt B n d)
    {v : Tensor ℝ} {V : Fin B → Fin n → ℝ} (hv : IsVec v B n V) :
    ∃ r, (AbstractDiagonal.defaults fwd jac).vjp x val v wrt = .ok (some r) ∧
      IsVec r B n fun b => V b ᵥ* diagonal (d b) := by
  refine Ret.exists_some ?_
  simp only [AbstractDiagonal.defaults, AbstractDiagonal.vjp, hjac, Res.bind_ok]
  exact ((ein_bi_bi hv hD).mono fun r hr => hr.congr fun b i => by rw [vecMul_diagonal]).some

/-- C30: `mjp` is `M b * diag(d b)`. -/
theorem C30_mjp (hjac : jac x val wrt true = .ok (some Dt)) (hD : IsVec Dt B n d)
    {A : Tensor ℝ} {M : Fin B → Matrix (Fin q) (Fin n) ℝ} (hA : IsMat A B q n M) :
    ∃ r, (AbstractDiagonal.defaults fwd jac).mjp x val (some A) wrt = .ok (some r) ∧
      IsMat r B q n fun b => M b * diagonal (d b) := by
  refine Ret.exists_some ?_
  simp only [AbstractDiagonal.defaults, AbstractDiagonal.mjp, hjac, Res.bind_ok]
  exact (ein_bij_bj_bij' hA hD).some

/-- C30: `jmp` and `mjp` without a matrix return what `jacobian(diag=False)` returns. -/
theorem C30_none :
    (AbstractDiagonal.defaults fwd jac).jmp x val none wrt = jac x val wrt false ∧
    (AbstractDiagonal.defaults fwd jac).mjp x val none wrt = jac x val wrt false ∧
    (AbstractDiagonal.defaults fwd jac).jacobian x val wrt = jac x val wrt false := ⟨rfl, rfl, rfl⟩

variable {s : List Nat} {y : Tensor ℝ}

/-- C30: all four modes of `jmjTp`, `val` given or not, `diag_backprop` set or not:
`diag(d b) * M b * diag(d b)`. -/
theorem C30_jmjTp (hx : x.shape = B :: s) (hval : val = some y ∨ (val = none ∧ fwd x = .ok y))
    (hjac : jac x (some y) wrt true = .ok (some Dt)) (hD : IsVec Dt B n d) (fromDiag toDiag db : Bool)
    {A : Tensor ℝ} {M : Fin B → Matrix (Fin n) (Fin n) ℝ} (hA : MetricArg fromDiag A B n M) :
    ∃ r, (AbstractDiagonal.defaults fwd jac).jmjTp x val (some A) wrt fromDiag toDiag db = .ok (some r) ∧
      MetricOut toDiag r B n fun b => diagonal (d b) * M b * (diagonal (d b))ᵀ := by
  refine Ret.exists_some ?_
  simp only [diagonal_transpose]
  rcases hval with rfl | ⟨rfl, hf⟩
  · simp only [AbstractDiagonal.defaults, AbstractDiagonal.jmjTp, Tensor.dim, hx, List.getElem?_cons_zero, Res.bind_ok,
      Res.pure_eq, hjac]
    exact AbstractDiagonal.sandwich_spec hD hA
  · simp only [AbstractDiagonal.defaults, AbstractDiagonal.jmjTp, Tensor.dim, hx, List.getElem?_cons_zero, Res.bind_ok,
      Res.pure_eq, hf, hjac]
    exact AbstractDiagonal.sandwich_spec hD hA

/-- C30: all four modes of `jTmjp`: `diag(d b)ᵀ * M b * diag(d b)`. -/
theorem C30_jTmjp (hx : x.shape = B :: s) (hval : val = some y ∨ (val = none ∧ fwd x = .ok y))
    (hjac : jac x (some y) wrt true = .ok (some Dt)) (hD : IsVec Dt B n d) (fromDiag toDiag db : Bool)
    {A : Tensor ℝ} {M : Fin B → Matrix (Fin n) (Fin n) ℝ} (hA : MetricArg fromDiag A B n M) :
    ∃ r, (AbstractDiagonal.defaults fwd jac).jTmjp x val (some A) wrt fromDiag toDiag db = .ok (some r) ∧
      MetricOut toDiag r B n fun b => (diagonal (d b))ᵀ * M b * diagonal (d b) := by
  refine Ret.exists_some ?_
  simp only [diagonal_transpose]
  rcases hval with rfl | ⟨rfl, hf⟩
  · simp only [AbstractDiagonal.defaults, AbstractDiagonal.jTmjp, Tensor.dim, hx, List.getElem?_cons_zero, Res.bind_ok,
      Res.pure_eq, hjac]
    exact AbstractDiagonal.sandwich_spec hD hA
  · simp only [AbstractDiagonal.defaults, AbstractDiagonal.jTmjp, Tensor.dim, hx, List.getElem?_cons_zero, Res.bind_ok,
      Res.pure_eq, hf, hjac]
    exact AbstractDiagonal.sandwich_spec hD hA

end C30

/-- A custom layer for the C30 theorems: `x ↦ 3 x` with `jacobian(diag=True) = 3`. -/
example : ∃ (fwd : Tensor ℝ → Res (Tensor ℝ)) (jac : AbstractDiagonal.Jac ℝ) (y Dt : Tensor ℝ),
    fwd (ones [2, 3]) = .ok y ∧ jac (ones [2, 3]) (some y) .input true = .ok (some Dt) ∧
    IsVec Dt 2 3 (fun _ _ => 3) ∧ MetricArg false (full [2, 3, 3] 1 : Tensor ℝ) 2 3 (fun _ _ _ => 1) :=
  ⟨fun x => .ok (x.map (3 * ·)), fun x _ _ _ => .ok (some (x.map fun _ => 3)), _, _, rfl, rfl,
    ⟨rfl, fun _ _ => rfl⟩, ⟨rfl, fun _ _ _ => rfl⟩⟩

end Props
end NNJ
