import Verif.Proofs.Views
import Mathlib.Data.Matrix.Diagonal

/-! Evaluation of the `einsum` calls of nnj on views. -/

namespace NNJ
open Tensor Matrix

theorem ein_ret {α : Type} [Zero α] [One α] [Add α] [Mul α] (D : Char → Nat) {ins : List (List Char)}
    {out : List Char} {ops : List (Tensor α)} {P : Tensor α → Prop} (h : ShapesFit D ins ops)
    (hout : ∀ c ∈ out, c ∈ ins.flatten)
    (hP : ∀ r : Tensor α, r.shape = out.map D → (∀ idx, Valid (out.map D) idx →
      r.get idx = sumLabels D (fun env => prodList (plainProd env ins ops))
        (contracted out ins.flatten []) (out.zip idx)) → P r) : Ret (einsum ins out ops) P := by
  obtain ⟨r, hr, hs, hg⟩ := einsum_spec D h hout
  exact ⟨r, hr, hP r hs hg⟩

/-- start of an einsum proof: `ein [('b', B), ...] [facts]` leaves the entrywise goal, simplified -/
macro "ein" D:term:max "[" ts:Lean.Parser.Tactic.simpLemma,* "]" : tactic =>
  `(tactic| (
    refine ein_ret (dm $D) (by simp [ShapesFit, dm, $ts,*]) (by simp) fun r hs hg => ⟨by simpa [dm] using hs, ?_⟩
    intros
    rw [hg _ (by simp [dm])]
    simp [sumLabels, contracted, envGet, prodList, plainProd, sumRange_eq, dm, $ts,*]))

/-- finish a double sum -/
macro "sums" : tactic =>
  `(tactic| (
    try simp only [Matrix.diag_apply]
    rw [Matrix.mul_apply]
    try simp only [Matrix.mul_diagonal, Matrix.diagonal_mul]
    try simp only [Matrix.mul_apply]
    try simp only [Matrix.transpose_apply, Finset.sum_mul, Finset.mul_sum]
    first
      | (refine Finset.sum_congr rfl fun _ _ => ?_; ring; done)
      | (refine Finset.sum_congr rfl fun _ _ => Finset.sum_congr rfl fun _ _ => ?_; ring; done)
      | (rw [Finset.sum_comm]; refine Finset.sum_congr rfl fun _ _ => Finset.sum_congr rfl fun _ _ => ?_; ring; done)))

section
variable {B m n q r : Nat}

/-! #### abstract_jacobian.py -/

theorem ein_bij_bj {A v : Tensor ℝ} {M : Fin B → Matrix (Fin m) (Fin n) ℝ} {X : Fin B → Fin n → ℝ}
    (hA : IsMat A B m n M) (hv : IsVec v B n X) :
    Ret (einsum% "bij,bj->bi" [A, v]) (fun r => IsVec r B m fun b => M b *ᵥ X b) := by
  ein [('b', B), ('i', m), ('j', n)] [hA.1, hA.2, hv.1, hv.2]
  rfl

theorem ein_bij_bjk {A C : Tensor ℝ} {M : Fin B → Matrix (Fin m) (Fin n) ℝ} {N : Fin B → Matrix (Fin n) (Fin q) ℝ}
    (hA : IsMat A B m n M) (hC : IsMat C B n q N) :
    Ret (einsum% "bij,bjk->bik" [A, C]) (fun r => IsMat r B m q fun b => M b * N b) := by
  ein [('b', B), ('i', m), ('j', n), ('k', q)] [hA.1, hA.2, hC.1, hC.2]
  rfl

theorem ein_bij_bjk_blk {A C : Tensor ℝ} {J : Fin B → Matrix (Fin m) (Fin n) ℝ} {M : Fin B → Matrix (Fin n) (Fin n) ℝ}
    (hA : IsMat A B m n J) (hC : IsMat C B n n M) :
    Ret (einsum% "bij,bjk,blk->bil" [A, C, A]) (fun r => IsMat r B m m fun b => J b * M b * (J b)ᵀ) := by
  ein [('b', B), ('i', m), ('j', n), ('k', n), ('l', m)] [hA.1, hA.2, hC.1, hC.2]
  sums

theorem ein_bij_bj_blj {A v : Tensor ℝ} {J : Fin B → Matrix (Fin m) (Fin n) ℝ} {d : Fin B → Fin n → ℝ}
    (hA : IsMat A B m n J) (hv : IsVec v B n d) :
    Ret (einsum% "bij,bj,blj->bil" [A, v, A])
      (fun r => IsMat r B m m fun b => J b * diagonal (d b) * (J b)ᵀ) := by
  ein [('b', B), ('i', m), ('j', n), ('l', m)] [hA.1, hA.2, hv.1, hv.2]
  sums

theorem ein_bij_bjk_bik {A C : Tensor ℝ} {J : Fin B → Matrix (Fin m) (Fin n) ℝ} {M : Fin B → Matrix (Fin n) (Fin n) ℝ}
    (hA : IsMat A B m n J) (hC : IsMat C B n n M) :
    Ret (einsum% "bij,bjk,bik->bi" [A, C, A]) (fun r => IsVec r B m fun b => diag (J b * M b * (J b)ᵀ)) := by
  ein [('b', B), ('i', m), ('j', n), ('k', n)] [hA.1, hA.2, hC.1, hC.2]
  sums

theorem ein_bij_bj_bij {A v : Tensor ℝ} {J : Fin B → Matrix (Fin m) (Fin n) ℝ} {d : Fin B → Fin n → ℝ}
    (hA : IsMat A B m n J) (hv : IsVec v B n d) :
    Ret (einsum% "bij,bj,bij->bi" [A, v, A])
      (fun r => IsVec r B m fun b => diag (J b * diagonal (d b) * (J b)ᵀ)) := by
  ein [('b', B), ('i', m), ('j', n)] [hA.1, hA.2, hv.1, hv.2]
  sums

theorem ein_bi_bij {A v : Tensor ℝ} {M : Fin B → Matrix (Fin m) (Fin n) ℝ} {X : Fin B → Fin m → ℝ}
    (hv : IsVec v B m X) (hA : IsMat A B m n M) :
    Ret (einsum% "bi,bij->bj" [v, A]) (fun r => IsVec r B n fun b => X b ᵥ* M b) := by
  ein [('b', B), ('i', m), ('j', n)] [hA.1, hA.2, hv.1, hv.2]
  rfl

theorem ein_bji_bjk_bkl {A C : Tensor ℝ} {J : Fin B → Matrix (Fin m) (Fin n) ℝ} {M : Fin B → Matrix (Fin m) (Fin m) ℝ}
    (hA : IsMat A B m n J) (hC : IsMat C B m m M) :
    Ret (einsum% "bji,bjk,bkl->bil" [A, C, A]) (fun r => IsMat r B n n fun b => (J b)ᵀ * M b * J b) := by
  ein [('b', B), ('i', n), ('j', m), ('k', m), ('l', n)] [hA.1, hA.2, hC.1, hC.2]
  sums

/-- the three diagonal modes of the default `jTmjp`, for square `J`: `J` where `Jᵀ` is meant -/
theorem ein_bij_bj_bjl {A v : Tensor ℝ} {J : Fin B → Matrix (Fin n) (Fin n) ℝ} {d : Fin B → Fin n → ℝ}
    (hA : IsMat A B n n J) (hv : IsVec v B n d) :
    Ret (einsum% "bij,bj,bjl->bil" [A, v, A]) (fun r => IsMat r B n n fun b => J b * diagonal (d b) * J b) := by
  ein [('b', B), ('i', n), ('j', n), ('l', n)] [hA.1, hA.2, hv.1, hv.2]
  sums

theorem ein_bij_bjk_bki {A C : Tensor ℝ} {J : Fin B → Matrix (Fin n) (Fin n) ℝ} {M : Fin B → Matrix (Fin n) (Fin n) ℝ}
    (hA : IsMat A B n n J) (hC : IsMat C B n n M) :
    Ret (einsum% "bij,bjk,bki->bi" [A, C, A]) (fun r => IsVec r B n fun b => diag (J b * M b * J b)) := by
  ein [('b', B), ('i', n), ('j', n), ('k', n)] [hA.1, hA.2, hC.1, hC.2]
  sums

theorem ein_bij_bj_bji {A v : Tensor ℝ} {J : Fin B → Matrix (Fin n) (Fin n) ℝ} {d : Fin B → Fin n → ℝ}
    (hA : IsMat A B n n J) (hv : IsVec v B n d) :
    Ret (einsum% "bij,bj,bji->bi" [A, v, A]) (fun r => IsVec r B n fun b => diag (J b * diagonal (d b) * J b)) := by
  ein [('b', B), ('i', n), ('j', n)] [hA.1, hA.2, hv.1, hv.2]
  sums

/-! #### abstract_diagonal_jacobian.py -/

theorem ein_bj_bj {u v : Tensor ℝ} {d X : Fin B → Fin n → ℝ} (hu : IsVec u B n d) (hv : IsVec v B n X) :
    Ret (einsum% "bj,bj->bj" [u, v]) (fun r => IsVec r B n fun b => diagonal (d b) *ᵥ X b) := by
  ein [('b', B), ('j', n)] [hu.1, hu.2, hv.1, hv.2, mulVec_diagonal]

theorem ein_bi_bi {u v : Tensor ℝ} {d X : Fin B → Fin n → ℝ} (hu : IsVec u B n d) (hv : IsVec v B n X) :
    Ret (einsum% "bi,bi->bi" [u, v]) (fun r => IsVec r B n fun b i => d b i * X b i) := by
  ein [('b', B), ('i', n)] [hu.1, hu.2, hv.1, hv.2]

theorem ein_bi_bij_bij {u A : Tensor ℝ} {d : Fin B → Fin m → ℝ} {M : Fin B → Matrix (Fin m) (Fin n) ℝ}
    (hu : IsVec u B m d) (hA : IsMat A B m n M) :
    Ret (einsum% "bi,bij->bij" [u, A]) (fun r => IsMat r B m n fun b => diagonal (d b) * M b) := by
  ein [('b', B), ('i', m), ('j', n)] [hu.1, hu.2, hA.1, hA.2, diagonal_mul]

theorem ein_bij_bj_bij' {u A : Tensor ℝ} {d : Fin B → Fin n → ℝ} {M : Fin B → Matrix (Fin m) (Fin n) ℝ}
    (hA : IsMat A B m n M) (hu : IsVec u B n d) :
    Ret (einsum% "bij,bj->bij" [A, u]) (fun r => IsMat r B m n fun b => M b * diagonal (d b)) := by
  ein [('b', B), ('i', m), ('j', n)] [hu.1, hu.2, hA.1, hA.2, mul_diagonal]

theorem ein_bi_bik_bk {u A : Tensor ℝ} {d : Fin B → Fin n → ℝ} {M : Fin B → Matrix (Fin n) (Fin n) ℝ}
    (hu : IsVec u B n d) (hA : IsMat A B n n M) :
    Ret (einsum% "bi,bik,bk->bik" [u, A, u])
      (fun r => IsMat r B n n fun b => diagonal (d b) * M b * diagonal (d b)) := by
  ein [('b', B), ('i', n), ('k', n)] [hu.1, hu.2, hA.1, hA.2, mul_diagonal, diagonal_mul, mul_assoc]

theorem ein_bi_bii_bi {u A : Tensor ℝ} {d : Fin B → Fin n → ℝ} {M : Fin B → Matrix (Fin n) (Fin n) ℝ}
    (hu : IsVec u B n d) (hA : IsMat A B n n M) :
    Ret (einsum% "bi,bii,bi->bi" [u, A, u])
      (fun r => IsVec r B n fun b => diag (diagonal (d b) * M b * diagonal (d b))) := by
  ein [('b', B), ('i', n)] [hu.1, hu.2, hA.1, hA.2, mul_diagonal, diagonal_mul, mul_assoc, diag_apply]

theorem ein_bii {A : Tensor ℝ} {M : Fin B → Matrix (Fin n) (Fin n) ℝ} (hA : IsMat A B n n M) :
    Ret (einsum% "bii->bi" [A]) (fun r => IsVec r B n fun b => diag (M b)) := by
  ein [('b', B), ('i', n)] [hA.1, hA.2, diag_apply]

end

end NNJ
