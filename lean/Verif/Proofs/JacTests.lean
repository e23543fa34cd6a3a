import Verif.Spec.JacTests
import Verif.Proofs.TestsDetect

/-! The tests of tests/jacobians.py: what the loops compute, for any layer and any autograd. -/

namespace NNJ
namespace Tests
open Tensor Matrix

/-! ### with respect to the input -/

theorem basis_batch {B k o : Nat} {s' : List Nat} (hs : size s' = k) :
    ∃ v, basis B k o s' = .ok v ∧ IsBatch v B s' k fun _ i => if (i : Nat) = o then 1 else 0 := by
  refine ⟨_, by rw [basis, reshape, if_pos]; simp [numel, ofFn, size, hs], rfl, fun b i => ?_⟩
  simp only [ofFn, unravel, size, Nat.mul_one, Nat.div_one]
  have h1 : (b * k + i : Nat) % k = i := by rw [Nat.mul_comm, Nat.mul_add_mod, Nat.mod_eq_of_lt i.2]
  simp [h1]

/-- entries written so far -/
def Filled {B k n : Nat} (G : Fin B → Matrix (Fin k) (Fin n) ℝ) (D : Nat → Nat → Prop) (t : Tensor ℝ) : Prop :=
  t.shape = [B, k, n] ∧ ∀ (b : Fin B) (i : Fin k) (j : Fin n), D b i → t.get [b, i, j] = G b i j

theorem Filled.mat {B k n : Nat} {G : Fin B → Matrix (Fin k) (Fin n) ℝ} {D : Nat → Nat → Prop} {t : Tensor ℝ} (h : Filled G D t)
    (hD : ∀ (b : Fin B) (i : Fin k), D b i) : IsMat t B k n G := ⟨h.1, fun b i j => h.2 b i j (hD b i)⟩

theorem setRows_filled {B k n o : Nat} {G : Fin B → Matrix (Fin k) (Fin n) ℝ} {D : Nat → Nat → Prop} {t row : Tensor ℝ} (h : Filled G D t) (ho : o < k)
    (hr : IsVec row B n fun b => G b ⟨o, ho⟩) : ∃ t', setRows t row o = .ok t' ∧ Filled G (fun b i => D b i ∨ i = o) t' := by
  refine ⟨_, by simp only [setRows, h.1, hr.1]; rw [if_pos ⟨trivial, trivial, ho⟩], rfl, fun b i j hD => ?_⟩
  rw [get_ofFn _ (by simp)]
  dsimp only
  by_cases hi : (i : Nat) = o
  · rw [if_pos hi, hr.2 b j]
    exact congrArg (fun i => G b i j) (Fin.ext hi.symm)
  · rw [if_neg hi]
    exact h.2 b i j (hD.resolve_right hi)

section
variable {s s' : List Nat} {n k p B : Nat} {L : Mod ℝ} {ag : Autograd} {I : Store ℝ → Prop} {x : Tensor ℝ} {G : Fin B → Matrix (Fin k) (Fin n) ℝ}

theorem fillInput_run (hs' : size s' = k) (hs : size s = n)
    (hag : ∀ (o : Fin k) v st, I st → IsBatch v B s' k (fun _ => Pi.single o 1) → Run (ag.vjp x v) st fun r st' => IsBatch r B s n (fun b => G b o) ∧ I st') :
    ∀ (os : List Nat) (D : Nat → Nat → Prop) (t : Tensor ℝ) (st : Store ℝ), (∀ o ∈ os, o < k) → I st → Filled G D t →
      Run (fillInput ag x B k n s' os t) st fun r st' => Filled G (fun b i => D b i ∨ i ∈ os) r ∧ I st' := by
  intro os
  induction os with
  | nil => intro D t st _ hI ht; exact ⟨t, st, rfl, ⟨ht.1, fun b i j h => ht.2 b i j (by simpa using h)⟩, hI⟩
  | cons o os ih =>
    intro D t st ho hI ht
    have hok : o < k := ho o (by simp)
    obtain ⟨v, ev, hv⟩ := basis_batch (B := B) (o := o) hs'
    simp only [fillInput]
    rw [ev]
    refine Run.bindEq rfl ?_
    refine Run.bind (hag ⟨o, hok⟩ v st hI ⟨hv.1, fun b i => (hv.2 b i).trans ?_⟩) ?_
    · dsimp only; rw [Pi.single_apply]; simp only [Fin.ext_iff]
    · intro row st1 ⟨hr, hI1⟩
      have hrow : row.reshape [B, n] = .ok ⟨[B, n], row.data⟩ := by rw [reshape, if_pos]; simp [numel, hr.1, size, hs]
      rw [hrow]
      refine Run.bindEq rfl ?_
      obtain ⟨t', et, ht'⟩ := setRows_filled (row := ⟨[B, n], row.data⟩) ht hok (isVec_iff_batch.2 ⟨rfl, fun b i => by
        have := hr.2 b i; exact this⟩)
      rw [et]
      refine Run.bindEq rfl ?_
      refine (ih _ t' st1 (fun o' h => ho o' (by simp [h])) hI1 ht').mono fun r st2 ⟨h1, h2⟩ => ⟨⟨h1.1, fun b i j h => h1.2 b i j ?_⟩, h2⟩
      simp only [List.mem_cons] at h
      tauto

theorem zeros_filled : Filled G (fun _ _ => False) (zeros [B, k, n]) := ⟨rfl, fun _ _ _ h => h.elim⟩

/-- the test compares the returned Jacobian with the rows computed by autograd -/
theorem jacInput_run {X : Fin B → Fin n → ℝ} {Y : Fin B → Fin k → ℝ} {J : Tensor ℝ → Prop} (hs' : size s' = k) (hs : size s = n) (hB : 0 < B)
    (hx : IsBatch x B s n X) {st : Store ℝ}
    (hc : Run (L.call x) st fun y st' => IsBatch y B s' k Y ∧ I st')
    (hj : ∀ st, I st → Run (L.jacobian x none .input) st fun r st' => IsSome J r ∧ I st')
    (hag : ∀ (o : Fin k) v st, I st → IsBatch v B s' k (fun _ => Pi.single o 1) → Run (ag.vjp x v) st fun r st' => IsBatch r B s n (fun b => G b o) ∧ I st') :
    ∃ j st', J j ∧ I st' ∧ Verdict (jacInput L ag x st) st' (NearMat j B k n G) := by
  obtain ⟨y, st1, e1, hy, hI1⟩ := hc
  obtain ⟨r, st2, e2, hJ, hI2⟩ := hj st1 hI1
  obtain ⟨j, rfl, hJ⟩ : ∃ j, r = some j ∧ J j := by
    cases r with
    | none => exact hJ.elim
    | some j => exact ⟨j, rfl, hJ⟩
  obtain ⟨t, st3, e3, ht, hI3⟩ := fillInput_run hs' hs hag (List.range k) (fun _ _ => False) _ st2 (fun o => List.mem_range.1) hI2 (zeros_filled (G := G))
  have hT := ht.mat fun b i => .inr (List.mem_range.2 i.2)
  refine ⟨j, st3, hJ, hI3, ?_⟩
  have e : jacInput L ag x st = check j t st3 := by
    simp only [jacInput]
    rw [Prog.bind_ok e1]
    simp only [hx.dim0, hx.numel0 hB hs, hy.numel0 hB hs', Prog.bind_lift_ok, show y.shape.tail = s' by rw [hy.1]; rfl]
    rw [Prog.bind_ok e2, Prog.bind_ok e3, Prog.need_some, Prog.bind_pure_run']
  rw [e]
  exact verdict_mat hT

end
end Tests
end NNJ
