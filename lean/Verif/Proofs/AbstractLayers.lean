import Verif.Proofs.Ein
import Verif.Model.AbstractJacobian
import Verif.Model.AbstractDiagonalJacobian

/-! Products of the two abstract classes, for an arbitrary `jacobian`. -/

namespace NNJ
open Tensor Matrix

theorem Ret.sok {β γ : Type} {p : Res β} {f : β → Res γ} {b : β} {Q : γ → Prop} (hp : p = .ok b)
    (hf : Ret (f b) Q) : Ret (p >>= f) Q := by subst hp; exact hf

/-- two different sizes, neither 1, for one label: `einsum` raises -/
theorem einsum_mismatch {α : Type} [Zero α] [One α] [Add α] [Mul α] {ins : List (List Char)} {out : List Char}
    {ops : List (Tensor α)} (c : Char) (n m : Nat) (h1 : (c, n) ∈ labelPairs ins ops)
    (h2 : (c, m) ∈ labelPairs ins ops) (hn : n ≠ 1) (hm : m ≠ 1) (hne : n ≠ m) :
    einsum ins out ops = .error .shape := by
  unfold einsum
  split
  · rw [if_neg]
    intro h
    rw [List.all_eq_true] at h
    have a := h _ h1
    have b := h _ h2
    simp only [decide_eq_true_eq] at a b
    omega
  · rfl

theorem diagEmbed_vec {B n : Nat} {v : Tensor ℝ} {d : Fin B → Fin n → ℝ} (hv : IsVec v B n d) :
    Ret v.diagEmbed (fun r => IsMat r B n n fun b => diagonal (d b)) := by
  simp only [diagEmbed, hv.1]
  refine Ret.ok ⟨rfl, fun b i j => ?_⟩
  erw [get_ofFn _ (by simp)]
  simp [diagonal_apply, Fin.ext_iff, hv.2]

theorem IsVec.mapsq {B n : Nat} {v : Tensor ℝ} {d : Fin B → Fin n → ℝ} (f : ℝ → ℝ) (hv : IsVec v B n d) :
    IsVec (v.map f) B n (fun b i => f (d b i)) :=
  ⟨hv.1, fun b i => by rw [get2 (t := v.map f) hv.1]; simp [Tensor.map, hv.data]⟩

namespace AbstractDiagonal

theorem sandwich_full {B n : Nat} {D A : Tensor ℝ} {d : Fin B → Fin n → ℝ} {M : Fin B → Matrix (Fin n) (Fin n) ℝ}
    (hD : IsVec D B n d) (hA : IsMat A B n n M) :
    Ret (sandwich D A false false) (IsSome fun r => IsMat r B n n fun b => diagonal (d b) * M b * diagonal (d b)) :=
  (ein_bi_bik_bk hD hA).some

theorem sandwich_full_diag {B n : Nat} {D A : Tensor ℝ} {d : Fin B → Fin n → ℝ}
    {M : Fin B → Matrix (Fin n) (Fin n) ℝ} (hD : IsVec D B n d) (hA : IsMat A B n n M) :
    Ret (sandwich D A false true)
      (IsSome fun r => IsVec r B n fun b => diag (diagonal (d b) * M b * diagonal (d b))) :=
  (ein_bi_bii_bi hD hA).some

theorem sandwich_diag {B n : Nat} {D A : Tensor ℝ} {d m : Fin B → Fin n → ℝ}
    (hD : IsVec D B n d) (hA : IsVec A B n m) :
    Ret (sandwich D A true true)
      (IsSome fun r => IsVec r B n fun b => diag (diagonal (d b) * diagonal (m b) * diagonal (d b))) :=
  ((ein_bi_bi (hD.mapsq fun a => a * a) hA).mono fun r hr => hr.congr fun b i => by simp; ring).some

theorem sandwich_diag_full {B n : Nat} {D A : Tensor ℝ} {d m : Fin B → Fin n → ℝ}
    (hD : IsVec D B n d) (hA : IsVec A B n m) :
    Ret (sandwich D A true false)
      (IsSome fun r => IsMat r B n n fun b => diagonal (d b) * diagonal (m b) * diagonal (d b)) := by
  refine (ein_bi_bi (hD.mapsq fun a => a * a) hA).bind fun e he => (diagEmbed_vec he).some.mono fun r hr => ?_
  cases r with
  | none => exact hr
  | some r =>
    refine IsMat.congr hr fun b i j => ?_
    by_cases h : i = j
    · subst h; simp; ring
    · simp [h]

/-- the four modes in one statement -/
theorem sandwich_spec {B n : Nat} {D A : Tensor ℝ} {d : Fin B → Fin n → ℝ} {M : Fin B → Matrix (Fin n) (Fin n) ℝ}
    {fd td : Bool} (hD : IsVec D B n d) (hA : MetricArg fd A B n M) :
    Ret (sandwich D A fd td)
      (IsSome fun r => MetricOut td r B n fun b => diagonal (d b) * M b * diagonal (d b)) := by
  cases fd <;> cases td
  · exact sandwich_full hD hA
  · exact sandwich_full_diag hD hA
  · obtain ⟨m, hm, hM⟩ := hA
    obtain rfl : M = fun b => diagonal (m b) := funext hM
    exact sandwich_diag_full hD hm
  · obtain ⟨m, hm, hM⟩ := hA
    obtain rfl : M = fun b => diagonal (m b) := funext hM
    exact sandwich_diag hD hm

end AbstractDiagonal

namespace AbstractJacobian

theorem jmjTp_core {B m n : Nat} {Jt A : Tensor ℝ} {J : Fin B → Matrix (Fin m) (Fin n) ℝ}
    {M : Fin B → Matrix (Fin n) (Fin n) ℝ} {jac : Jac ℝ} {x : Tensor ℝ} {val : Option (Tensor ℝ)} {wrt : Wrt}
    {fd td : Bool} (hjac : jac x val wrt = .ok (some Jt)) (hJ : IsMat Jt B m n J) (hA : MetricArg fd A B n M) :
    Ret (jmjTp jac x val (some A) wrt fd td false)
      (IsSome fun r => MetricOut td r B m fun b => J b * M b * (J b)ᵀ) := by
  unfold jmjTp
  simp only [hjac, Res.bind_ok, needR]
  cases fd <;> cases td
  · exact (ein_bij_bjk_blk hJ hA).some
  · exact (ein_bij_bjk_bik hJ hA).some
  · obtain ⟨d, hd, hM⟩ := hA
    obtain rfl : M = fun b => diagonal (d b) := funext hM
    exact (ein_bij_bj_blj hJ hd).some
  · obtain ⟨d, hd, hM⟩ := hA
    obtain rfl : M = fun b => diagonal (d b) := funext hM
    exact (ein_bij_bj_bij hJ hd).some

/-- the formula the default `jTmjp` computes for square `J` when a diagonal flag is set -/
theorem jTmjp_core {B n : Nat} {Jt A : Tensor ℝ} {J : Fin B → Matrix (Fin n) (Fin n) ℝ}
    {M : Fin B → Matrix (Fin n) (Fin n) ℝ} {jac : Jac ℝ} {x : Tensor ℝ} {val : Option (Tensor ℝ)} {wrt : Wrt}
    {fd td : Bool} (hjac : jac x val wrt = .ok (some Jt)) (hJ : IsMat Jt B n n J) (hA : MetricArg fd A B n M)
    (h : fd = true ∨ td = true) :
    Ret (jTmjp jac x val (some A) wrt fd td false)
      (IsSome fun r => MetricOut td r B n fun b => J b * M b * J b) := by
  unfold jTmjp
  simp only [hjac, Res.bind_ok, needR]
  cases fd <;> cases td
  · simp at h
  · exact (ein_bij_bjk_bki hJ hA).some
  · obtain ⟨d, hd, hM⟩ := hA
    obtain rfl : M = fun b => diagonal (d b) := funext hM
    exact (ein_bij_bj_bjl hJ hd).some
  · obtain ⟨d, hd, hM⟩ := hA
    obtain rfl : M = fun b => diagonal (d b) := funext hM
    exact (ein_bij_bj_bji hJ hd).some

end AbstractJacobian

theorem Ret.exists_some {β : Type} {p : Res (Option β)} {P : β → Prop} (h : Ret p (IsSome P)) :
    ∃ r, p = .ok (Option.some r) ∧ P r := by
  obtain ⟨r, hr, hP⟩ := h
  cases r with
  | none => exact hP.elim
  | some r => exact ⟨r, hr, hP⟩

end NNJ
