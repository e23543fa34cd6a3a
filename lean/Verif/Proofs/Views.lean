import Verif.Proofs.Tensor
import Verif.Spec.Views
import Mathlib.Data.Matrix.Basic

/-! Lemmas on views; Hoare-style reasoning for `Res` and `Prog`. -/

namespace NNJ
open Tensor Matrix

/-- `p` returns normally with a value satisfying `P`. -/
def Ret {β : Type} (p : Res β) (P : β → Prop) : Prop := ∃ r, p = .ok r ∧ P r

namespace Ret
variable {β γ : Type}
theorem ok {b : β} {P : β → Prop} (h : P b) : Ret (Except.ok b) P := ⟨b, rfl, h⟩
theorem pure {b : β} {P : β → Prop} (h : P b) : Ret (Pure.pure b) P := ⟨b, rfl, h⟩
theorem bind {p : Res β} {f : β → Res γ} {P : β → Prop} {Q : γ → Prop} (hp : Ret p P)
    (hf : ∀ b, P b → Ret (f b) Q) : Ret (p >>= f) Q := by
  obtain ⟨b, rfl, hb⟩ := hp
  exact hf b hb
theorem map {p : Res β} {f : β → γ} {P : β → Prop} {Q : γ → Prop} (hp : Ret p P)
    (hf : ∀ b, P b → Q (f b)) : Ret (f <$> p) Q := by
  obtain ⟨b, rfl, hb⟩ := hp
  exact ⟨f b, rfl, hf b hb⟩
theorem mono {p : Res β} {P Q : β → Prop} (hp : Ret p P) (h : ∀ b, P b → Q b) : Ret p Q := by
  obtain ⟨b, hb, hP⟩ := hp
  exact ⟨b, hb, h b hP⟩
/-- the result of a returning computation satisfies the postcondition -/
theorem of_eq {p : Res β} {P : β → Prop} (hp : Ret p P) {r : β} (h : p = .ok r) : P r := by
  obtain ⟨b, hb, hP⟩ := hp
  rw [hb] at h
  cases h; exact hP
theorem assertR {c : Prop} [Decidable c] (h : c) : Ret (NNJ.assertR c) (fun _ => True) := by
  simp [NNJ.assertR, h, Ret]
end Ret

/-- `Some`-valued postcondition. -/
def IsSome {β : Type} (P : β → Prop) : Option β → Prop
  | some b => P b
  | none => False

theorem Ret.some {β : Type} {p : Res β} {P : β → Prop} (h : Ret p P) :
    Ret (Option.some <$> p) (IsSome P) := h.map fun _ hb => hb

/-- Postcondition "`none`". -/
def IsNone {β : Type} : Option β → Prop
  | Option.some _ => False
  | Option.none => True

/-- lookup table for label sizes -/
def dm : List (Char × Nat) → Char → Nat
  | [], _ => 0
  | (c, n) :: l, c' => if c = c' then n else dm l c'

theorem IsVec.get {t : Tensor ℝ} {B n : Nat} {X : Fin B → Fin n → ℝ} (h : IsVec t B n X) {b i : Nat}
    (hb : b < B) (hi : i < n) : t.get [b, i] = X ⟨b, hb⟩ ⟨i, hi⟩ := h.2 ⟨b, hb⟩ ⟨i, hi⟩

theorem IsMat.get {t : Tensor ℝ} {B m n : Nat} {M : Fin B → Matrix (Fin m) (Fin n) ℝ} (h : IsMat t B m n M)
    {b i j : Nat} (hb : b < B) (hi : i < m) (hj : j < n) :
    t.get [b, i, j] = M ⟨b, hb⟩ ⟨i, hi⟩ ⟨j, hj⟩ := h.2 ⟨b, hb⟩ ⟨i, hi⟩ ⟨j, hj⟩

theorem IsVec.data {t : Tensor ℝ} {B n : Nat} {X : Fin B → Fin n → ℝ} (h : IsVec t B n X) (b : Fin B) (i : Fin n) :
    t.data (b * n + i) = X b i := by rw [← h.2 b i, get2 h.1]

theorem IsMat.data {t : Tensor ℝ} {B m n : Nat} {M : Fin B → Matrix (Fin m) (Fin n) ℝ} (h : IsMat t B m n M)
    (b : Fin B) (i : Fin m) (j : Fin n) : t.data (b * (m * n) + (i * n + j)) = M b i j := by
  rw [← h.2 b i j, get3 h.1]

theorem isVec_iff_batch {t : Tensor ℝ} {B n : Nat} {X : Fin B → Fin n → ℝ} :
    IsVec t B n X ↔ IsBatch t B [n] n X := by
  constructor
  · intro h; exact ⟨h.1, h.data⟩
  · intro h; exact ⟨h.1, fun b i => by rw [get2 h.1]; exact h.2 b i⟩

theorem IsVec.congr {t : Tensor ℝ} {B n : Nat} {X Y : Fin B → Fin n → ℝ} (h : IsVec t B n X)
    (e : ∀ b i, X b i = Y b i) : IsVec t B n Y := ⟨h.1, fun b i => by rw [h.2, e]⟩
theorem IsMat.congr {t : Tensor ℝ} {B m n : Nat} {M N : Fin B → Matrix (Fin m) (Fin n) ℝ} (h : IsMat t B m n M)
    (e : ∀ b i j, M b i j = N b i j) : IsMat t B m n N := ⟨h.1, fun b i j => by rw [h.2, e]⟩
theorem IsBatch.congr {t : Tensor ℝ} {B n : Nat} {s : List Nat} {X Y : Fin B → Fin n → ℝ} (h : IsBatch t B s n X)
    (e : ∀ b i, X b i = Y b i) : IsBatch t B s n Y := ⟨h.1, fun b i => by rw [h.2, e]⟩

end NNJ
