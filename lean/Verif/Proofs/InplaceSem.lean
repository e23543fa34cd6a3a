import Verif.Spec.Inplace
import Verif.Proofs.NetGood

/-! Feature maps overwritten by an in-place ReLU: the semantics of a network whose layers compute `relu ∘ layer` where their output is overwritten. -/

namespace NNJ
open Matrix

/-- overwritten or not -/
noncomputable def rl {n : Nat} (c : Bool) (v : Fin n → ℝ) : Fin n → ℝ := fun i => if c then max (v i) 0 else v i

/-- the derivative of ReLU -/
noncomputable def rmask {n : Nat} (c : Bool) (v : Fin n → ℝ) : Matrix (Fin n) (Fin n) ℝ := if c then diagonal fun i => if 0 < v i then 1 else 0 else 1

@[simp] theorem rl_false {n : Nat} (v : Fin n → ℝ) : rl false v = v := rfl
@[simp] theorem rmask_false {n : Nat} (v : Fin n → ℝ) : rmask false v = 1 := rfl
theorem rl_rl {n : Nat} (c d : Bool) (v : Fin n → ℝ) : rl c (rl d v) = rl (d || c) v := by
  funext i
  cases c <;> cases d <;> simp [rl]

theorem rmask_sq {n : Nat} (c : Bool) (v : Fin n → ℝ) : rmask c v * rmask c v = rmask c v := by
  cases c
  · simp
  · simp [rmask, diagonal_mul_diagonal]

/-- `S'`, run from the input as it is at the end (`cin`: overwritten), has the outputs of `S` as they are at the end (`cor`: overwritten), and its matrices
agree with those of `S` in all rows that a ReLU passes on. -/
structure Cor {n k p : Nat} (S S' : Sem n k p) (cin cor : Bool) : Prop where
  f : ∀ w x, S'.f w (rl cin x) = rl cor (S.f w x)
  J : ∀ w x, rmask cor (S.f w x) * S'.J w (rl cin x) = rmask cor (S.f w x) * S.J w x
  JW : ∀ w x, rmask cor (S.f w x) * S'.JW w (rl cin x) = rmask cor (S.f w x) * S.JW w x
  Jm : ∀ w x, rmask cor (S.f w x) * S.J w x * rmask cin x = rmask cor (S.f w x) * S.J w x

namespace Cor
variable {n k l p q : Nat}

theorem refl (S : Sem n k p) : Cor S S false false := ⟨fun _ _ => rfl, fun _ _ => rfl, fun _ _ => rfl, fun _ _ => by simp⟩

theorem id (n : Nat) (c : Bool) : Cor (Sem.id n) (Sem.id n) c c :=
  ⟨fun _ _ => rfl, fun _ _ => rfl, fun _ _ => rfl, fun _ x => by simp [Sem.id, rmask_sq]⟩

theorem reshape (n : Nat) (c : Bool) : Cor (reshapeSem n) (reshapeSem n) c c :=
  ⟨fun _ _ => rfl, fun _ _ => rfl, fun _ _ => rfl, fun _ x => by simp [reshapeSem, Sem.leaf0, Sem.leaf, rmask_sq]⟩

theorem mul_hcat (A : Matrix (Fin n) (Fin k) ℝ) (C : Matrix (Fin k) (Fin p) ℝ) (D : Matrix (Fin k) (Fin q) ℝ) : A * hcat C D = hcat (A * C) (A * D) := by
  ext i j
  refine Fin.addCases (fun j => ?_) (fun j => ?_) j
  · simp [hcat, Matrix.mul_apply]
  · simp [hcat, Matrix.mul_apply]

theorem comp {S1 S1' : Sem n l p} {S2 S2' : Sem l k q} {a b c : Bool} (h1 : Cor S1 S1' a b) (h2 : Cor S2 S2' b c) :
    Cor (S1.comp S2) (S1'.comp S2') a c := by
  have key : ∀ {r : Nat} (w : Fin (p + q) → ℝ) (x : Fin n → ℝ) (A A' : Matrix (Fin l) (Fin r) ℝ),
      rmask b (S1.f (wl w) x) * A' = rmask b (S1.f (wl w) x) * A →
      rmask c (S2.f (wr w) (S1.f (wl w) x)) * (S2'.J (wr w) (rl b (S1.f (wl w) x)) * A') =
        rmask c (S2.f (wr w) (S1.f (wl w) x)) * (S2.J (wr w) (S1.f (wl w) x) * A) := by
    intro r w x A A' h
    rw [← Matrix.mul_assoc, h2.J, ← h2.Jm, Matrix.mul_assoc, h, ← Matrix.mul_assoc, h2.Jm, Matrix.mul_assoc]
  refine ⟨fun w x => ?_, fun w x => ?_, fun w x => ?_, fun w x => ?_⟩
  · simp only [Sem.comp, h1.f, h2.f]
  · simp only [Sem.comp, h1.f]
    exact key w x _ _ (h1.J _ _)
  · simp only [Sem.comp, h1.f, mul_hcat]
    rw [key w x _ _ (h1.JW _ _), h2.JW]
  · simp only [Sem.comp]
    have e := h1.Jm (wl w) x
    calc rmask c (S2.f (wr w) (S1.f (wl w) x)) * (S2.J (wr w) (S1.f (wl w) x) * S1.J (wl w) x) * rmask a x
        = rmask c (S2.f (wr w) (S1.f (wl w) x)) * S2.J (wr w) (S1.f (wl w) x) * rmask b (S1.f (wl w) x) * S1.J (wl w) x * rmask a x := by
          rw [h2.Jm]; simp only [Matrix.mul_assoc]
      _ = rmask c (S2.f (wr w) (S1.f (wl w) x)) * S2.J (wr w) (S1.f (wl w) x) * (rmask b (S1.f (wl w) x) * S1.J (wl w) x * rmask a x) := by
          simp only [Matrix.mul_assoc]
      _ = rmask c (S2.f (wr w) (S1.f (wl w) x)) * S2.J (wr w) (S1.f (wl w) x) * rmask b (S1.f (wl w) x) * S1.J (wl w) x := by
          rw [e]; simp only [Matrix.mul_assoc]
      _ = _ := by rw [h2.Jm, Matrix.mul_assoc]

/-- the same matrices, output overwritten -/
noncomputable def _root_.NNJ.Sem.post (S : Sem n k p) : Sem n k p := { S with f := fun w x => rl true (S.f w x) }

theorem post {S S' : Sem n k p} {a : Bool} (h : Cor S S' a false) : Cor S S'.post a true := by
  refine ⟨fun w x => ?_, fun w x => ?_, fun w x => ?_, fun w x => ?_⟩
  · simp only [Sem.post, h.f]; rfl
  · have := h.J w x
    simp only [rmask_false, Matrix.one_mul] at this
    simp only [Sem.post, this]
  · have := h.JW w x
    simp only [rmask_false, Matrix.one_mul] at this
    simp only [Sem.post, this]
  · have := h.Jm w x
    simp only [rmask_false, Matrix.one_mul] at this
    rw [Matrix.mul_assoc, this]

theorem skip {S S' : Sem n k p} (h : Cor S S' false false) : Cor S.skip S'.skip false false := by
  have e1 : S'.f = S.f := funext fun w => funext fun x => h.f w x
  have e2 : S'.J = S.J := funext fun w => funext fun x => by simpa using h.J w x
  have e3 : S'.JW = S.JW := funext fun w => funext fun x => by simpa using h.JW w x
  refine ⟨fun w x => ?_, fun w x => ?_, fun w x => ?_, fun w x => by simp⟩ <;> simp only [Sem.skip, e1, e2, e3] <;> rfl

end Cor

/-! ### elementwise layers -/

namespace Act

/-- the diagonal of the Jacobian as the layer computes it -/
noncomputable def diagOf : Act → Tensor ℝ → Tensor ℝ → Tensor ℝ
  | relu => Activation.reluDiag
  | sigmoid => Activation.sigmoidDiag
  | tanh => Activation.tanhDiag
  | sinusoidal => Activation.sinDiag
  | softplus b _ => Activation.softplusDiag b
  | truncExp => Activation.truncExpDiag
  | custom _ g => Activation.customDiag g

/-- one entry of it -/
noncomputable def diagFn : Act → ℝ → ℝ → ℝ
  | relu, _, v => if 0 < v then 1 else 0
  | sigmoid, _, v => v * (1 - v)
  | tanh, _, v => 1 - v * v
  | sinusoidal, x, _ => Real.cos x
  | softplus b _, x, _ => 1 / (1 + Real.exp (-(b * x)))
  | truncExp, x, _ => Real.exp (Activation.clamp15 x)
  | custom _ g, x, v => g x v

theorem diagFn_fn (a : Act) (x : ℝ) : a.diagFn x (a.fn x) = a.deriv x := by
  cases a with
  | relu => simp only [diagFn, fn, deriv]; congr 1; simp
  | sigmoid => rfl
  | tanh => rfl
  | sinusoidal => rfl
  | softplus b t => rfl
  | truncExp =>
    simp only [diagFn, Activation.clamp15, Act.deriv, Nat.cast_ofNat]
    congr 1
    split_ifs with h1 h2
    · rw [min_eq_right (by linarith), max_eq_left h1.le]
    · rw [min_eq_left h2.le, max_eq_right (by norm_num)]
    · rw [min_eq_right (not_lt.1 h2), max_eq_right (not_lt.1 h1)]
  | custom f g => rfl

theorem isBatch_diagOf (a : Act) {B n : Nat} {s : List Nat} {x v : Tensor ℝ} {X V : Fin B → Fin n → ℝ} (hx : IsBatch x B s n X) (hv : IsBatch v B s n V) :
    IsBatch (a.diagOf x v) B s n fun b i => a.diagFn (X b i) (V b i) := by
  cases a with
  | relu => exact (hv.map _).congr fun b i => rfl
  | sigmoid => exact (hv.map _).congr fun b i => rfl
  | tanh => exact (hv.map _).congr fun b i => rfl
  | sinusoidal => exact (hx.map _).congr fun b i => rfl
  | softplus b t => exact (hx.map _).congr fun b i => rfl
  | truncExp => exact (hx.map _).congr fun b i => rfl
  | custom f g =>
    refine ⟨hv.1, fun b i => ?_⟩
    show g _ _ = g _ _
    rw [hx.2, hv.2]

/-- semantics of the layer when its output is overwritten -/
noncomputable def corSem (a : Act) (n : Nat) : Sem n n 0 :=
  Sem.leaf0 (fun x i => max (a.fn (x i)) 0) (fun x => diagonal fun i => a.diagFn (x i) (max (a.fn (x i)) 0)) fun _ => True

end Act

theorem cor_act (a : Act) (n : Nat) : Cor (a.sem n) (a.corSem n) false true := by
  refine ⟨fun w x => rfl, fun w x => ?_, fun w x => rfl, fun w x => by simp⟩
  simp only [Act.sem, Act.corSem, Sem.leaf0, Sem.leaf, rl_false, rmask, if_true, diagonal_mul_diagonal]
  congr 1
  funext i
  split_ifs with h
  · rw [max_eq_left h.le, Act.diagFn_fn]
  · simp [h]

theorem cor_relu (n : Nat) (cor : Bool) : Cor (Act.relu.sem n) (if cor then Act.relu.corSem n else Act.relu.sem n) true cor := by
  cases cor
  · refine ⟨fun w x => ?_, fun w x => ?_, fun w x => rfl, fun w x => ?_⟩
    · funext i; simp [Act.sem, Sem.leaf0, Sem.leaf, rl, Act.fn]
    · simp only [Act.sem, Sem.leaf0, Sem.leaf, Act.deriv]
      simp [rl]
    · simp only [Act.sem, Sem.leaf0, Sem.leaf, rmask, if_true, Act.deriv]
      simp [diagonal_mul_diagonal]
  · refine ⟨fun w x => ?_, fun w x => ?_, fun w x => rfl, fun w x => ?_⟩
    · funext i; simp [Act.sem, Act.corSem, Sem.leaf0, Sem.leaf, rl, Act.fn]
    · simp only [Act.sem, Act.corSem, Sem.leaf0, Sem.leaf, rl, Act.deriv, Act.diagFn, Act.fn, rmask, if_true, diagonal_mul_diagonal]
      simp
    · simp only [Act.sem, Sem.leaf0, Sem.leaf, rmask, if_true, Act.deriv, Act.fn]
      simp only [diagonal_mul_diagonal]
      congr 1
      funext i
      by_cases h : 0 < x i <;> simp [h]

/-! ### squared entries -/

/-- the matrices of the approximation `diag_backprop` in place of the Jacobians -/
def Sem.sqd {n k p : Nat} (S : Sem n k p) : Sem n k p := { S with J := S.Q, JW := S.QW }

theorem sq_diagonal {n : Nat} (d : Fin n → ℝ) : sq (diagonal d) = diagonal fun i => d i * d i := by
  ext i j
  by_cases h : i = j
  · subst h; simp [sq]
  · simp [sq, h]

theorem sqM_zero {n k : Nat} : sq (0 : Matrix (Fin n) (Fin k) ℝ) = 0 := by ext i j; simp [sq]

theorem cor_actQ (a : Act) (n : Nat) : Cor (a.sem n).sqd (a.corSem n).sqd false true := by
  refine ⟨fun w x => rfl, fun w x => ?_, fun w x => rfl, fun w x => by simp⟩
  simp only [Sem.sqd, Act.sem, Act.corSem, Sem.leaf0, Sem.leaf, rl_false, rmask, if_true, sq_diagonal, diagonal_mul_diagonal]
  congr 1
  funext i
  split_ifs with h
  · rw [max_eq_left h.le, Act.diagFn_fn]
  · simp [h]

theorem relu_sqd (n : Nat) : (Act.relu.sem n).sqd = { Act.relu.sem n with } ∧ (Act.relu.corSem n).sqd = { Act.relu.corSem n with } := by
  constructor
  · simp only [Sem.sqd, Act.sem, Sem.leaf0, Sem.leaf, sq_diagonal, sqM_zero, Act.deriv]
    simp
    funext w x
    congr 1
    funext i
    split_ifs <;> rfl
  · simp only [Sem.sqd, Act.corSem, Sem.leaf0, Sem.leaf, sq_diagonal, sqM_zero, Act.diagFn]
    simp
    funext w x
    congr 1
    funext i
    split_ifs <;> rfl

theorem cor_reluQ (n : Nat) (cor : Bool) :
    Cor (Act.relu.sem n).sqd (if cor then (Act.relu.corSem n).sqd else (Act.relu.sem n).sqd) true cor := by
  rw [(relu_sqd n).1, (relu_sqd n).2]
  exact cor_relu n cor

theorem Cor.reshapeQ (n : Nat) (c : Bool) : Cor (reshapeSem n).sqd (reshapeSem n).sqd c c := by
  have : sq (1 : Matrix (Fin n) (Fin n) ℝ) = 1 := by
    rw [← diagonal_one, sq_diagonal]; simp
  refine ⟨fun _ _ => rfl, fun _ _ => rfl, fun _ _ => rfl, fun _ x => ?_⟩
  simp only [Sem.sqd, reshapeSem, Sem.leaf0, Sem.leaf, this]
  simp [rmask_sq]

end NNJ
