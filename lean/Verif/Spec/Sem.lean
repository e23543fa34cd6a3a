import Verif.Model.Activations
import Mathlib.Data.Matrix.Diagonal
import Mathlib.Data.Fin.Tuple.Basic
import Mathlib.Analysis.SpecialFunctions.Log.Basic
import Mathlib.Analysis.SpecialFunctions.Trigonometric.Basic
import Mathlib.Analysis.SpecialFunctions.Sqrt
import Mathlib.Analysis.Calculus.Deriv.Basic

/-!
# Mathematical semantics of layers

Independent of the tensor code: for one sample, a layer with `n` inputs, `k` outputs and `p`
parameters is a function `f w x` with matrices `J w x` (k x n) and `JW w x` (k x p).  That these
are the derivatives is a theorem (property C01, C02), not part of the definition.
-/

namespace NNJ
open Matrix

/-- The elementary functions on the reals. -/
noncomputable instance : Trans ℝ where
  exp := Real.exp
  log := Real.log
  tanh := Real.tanh
  sin := Real.sin
  cos := Real.cos
  sqrt := Real.sqrt

/-- `[A | B]` -/
def hcat {k p q : Nat} (A : Matrix (Fin k) (Fin p) ℝ) (B : Matrix (Fin k) (Fin q) ℝ) :
    Matrix (Fin k) (Fin (p + q)) ℝ := fun i => Fin.append (A i) (B i)

/-- `A` on top of `B` -/
def vcat {m k n : Nat} (A : Matrix (Fin m) (Fin n) ℝ) (B : Matrix (Fin k) (Fin n) ℝ) :
    Matrix (Fin (m + k)) (Fin n) ℝ := Fin.append A B

/-- the first `p` of `p + q` entries -/
def wl {p q : Nat} (w : Fin (p + q) → ℝ) : Fin p → ℝ := fun i => w (Fin.castAdd q i)
/-- the last `q` of `p + q` entries -/
def wr {p q : Nat} (w : Fin (p + q) → ℝ) : Fin q → ℝ := fun i => w (Fin.natAdd p i)

/-- entrywise square -/
def sq {k n : Nat} (A : Matrix (Fin k) (Fin n) ℝ) : Matrix (Fin k) (Fin n) ℝ := fun i j => A i j * A i j

/-- Semantics of a module on one sample.
* `f w x`: output, `J w x` and `JW w x`: matrices of the input and weight products;
* `Q`, `QW`: the matrices used by `diag_backprop=True` (entrywise squares, multiplied along the
  network);
* `same i j`: parameters `i` and `j` belong to the same leaf layer;
* `smooth w x`: the layers met on the way are differentiable. -/
structure Sem (n k p : Nat) where
  f : (Fin p → ℝ) → (Fin n → ℝ) → Fin k → ℝ
  J : (Fin p → ℝ) → (Fin n → ℝ) → Matrix (Fin k) (Fin n) ℝ
  JW : (Fin p → ℝ) → (Fin n → ℝ) → Matrix (Fin k) (Fin p) ℝ
  Q : (Fin p → ℝ) → (Fin n → ℝ) → Matrix (Fin k) (Fin n) ℝ
  QW : (Fin p → ℝ) → (Fin n → ℝ) → Matrix (Fin k) (Fin p) ℝ
  same : Fin p → Fin p → Bool
  smooth : (Fin p → ℝ) → (Fin n → ℝ) → Prop

namespace Sem
variable {n l k p q : Nat}

/-- a leaf layer -/
def leaf (f : (Fin p → ℝ) → (Fin n → ℝ) → Fin k → ℝ) (J : (Fin p → ℝ) → (Fin n → ℝ) → Matrix (Fin k) (Fin n) ℝ)
    (JW : (Fin p → ℝ) → (Fin n → ℝ) → Matrix (Fin k) (Fin p) ℝ) (smooth : (Fin p → ℝ) → (Fin n → ℝ) → Prop) :
    Sem n k p where
  f := f
  J := J
  JW := JW
  Q w x := sq (J w x)
  QW w x := sq (JW w x)
  same _ _ := true
  smooth := smooth

/-- a leaf layer without parameters -/
def leaf0 (f : (Fin n → ℝ) → Fin k → ℝ) (J : (Fin n → ℝ) → Matrix (Fin k) (Fin n) ℝ)
    (smooth : (Fin n → ℝ) → Prop) : Sem n k 0 :=
  leaf (fun _ => f) (fun _ => J) (fun _ _ => 0) (fun _ => smooth)

/-- no layer at all -/
def id (n : Nat) : Sem n n 0 where
  f _ x := x
  J _ _ := 1
  JW _ _ := 0
  Q _ _ := 1
  QW _ _ := 0
  same _ _ := true
  smooth _ _ := True

/-- first `S1`, then `S2`; the weights of `S1` come first -/
def comp (S1 : Sem n l p) (S2 : Sem l k q) : Sem n k (p + q) where
  f w x := S2.f (wr w) (S1.f (wl w) x)
  J w x := S2.J (wr w) (S1.f (wl w) x) * S1.J (wl w) x
  JW w x := hcat (S2.J (wr w) (S1.f (wl w) x) * S1.JW (wl w) x) (S2.JW (wr w) (S1.f (wl w) x))
  Q w x := S2.Q (wr w) (S1.f (wl w) x) * S1.Q (wl w) x
  QW w x := hcat (S2.Q (wr w) (S1.f (wl w) x) * S1.QW (wl w) x) (S2.QW (wr w) (S1.f (wl w) x))
  same i j := Fin.addCases (fun i => Fin.addCases (fun j => S1.same i j) (fun _ => false) j)
    (fun i => Fin.addCases (fun _ => false) (fun j => S2.same i j) j) i
  smooth w x := S1.smooth (wl w) x ∧ S2.smooth (wr w) (S1.f (wl w) x)

/-- the input followed by the output of `S` -/
def skip (S : Sem n k p) : Sem n (n + k) p where
  f w x := Fin.append x (S.f w x)
  J w x := vcat 1 (S.J w x)
  JW w x := vcat 0 (S.JW w x)
  Q w x := vcat 1 (S.Q w x)
  QW w x := vcat 0 (S.QW w x)
  same := S.same
  smooth := S.smooth

/-- keep only the entries of a weight-space matrix that couple parameters of one leaf layer -/
def mask (S : Sem n k p) (Z : Matrix (Fin p) (Fin p) ℝ) : Matrix (Fin p) (Fin p) ℝ :=
  fun i j => if S.same i j then Z i j else 0

end Sem

/-! ### the layers -/

/-- number of bias parameters -/
def biasLen (bId : Option Nat) (o : Nat) : Nat :=
  match bId with
  | some _ => o
  | none => 0

/-- `y_k = Σ_j W_kj x_j + b_k`, with `W` row-major first and `b` last in the weight vector -/
noncomputable def linearF (bId : Option Nat) (i o : Nat) (w : Fin (o * i + biasLen bId o) → ℝ) (x : Fin i → ℝ) (k : Fin o) : ℝ :=
  ∑ j : Fin i, w (Fin.castAdd _ (finProdFinEquiv (k, j))) * x j +
    if h : k.val < biasLen bId o then w (Fin.natAdd (o * i) ⟨k, h⟩) else 0

/-- semantics of `nnj.Linear` -/
noncomputable def linearSem (bId : Option Nat) (i o : Nat) : Sem i o (o * i + biasLen bId o) :=
  Sem.leaf (linearF bId i o)
    (fun w _ k j => w (Fin.castAdd _ (finProdFinEquiv (k, j))))
    (fun _ x => hcat (fun k c => if (finProdFinEquiv.symm c).1 = k then x (finProdFinEquiv.symm c).2 else 0)
      (fun k c => if c.val = k.val then 1 else 0))
    (fun _ _ => True)

/-- the elementwise activations of nnj, and user-defined elementwise layers: the function, and its derivative as computed from `x` and `val` -/
inductive Act where
  | relu
  | sigmoid
  | tanh
  | sinusoidal
  | softplus (beta threshold : ℝ)
  | truncExp
  | custom (f : ℝ → ℝ) (g : ℝ → ℝ → ℝ)

namespace Act

/-- the model of the layer -/
noncomputable def layer : Act → PureLayer ℝ
  | relu => Activation.relu
  | sigmoid => Activation.sigmoid
  | tanh => Activation.tanh
  | sinusoidal => Activation.sinusoidal
  | softplus b t => Activation.softplus b t
  | truncExp => Activation.truncExp
  | custom f g => Activation.custom f g

/-- the function -/
noncomputable def fn : Act → ℝ → ℝ
  | relu, a => max a 0
  | sigmoid, a => 1 / (1 + Real.exp (-a))
  | tanh, a => Real.tanh a
  | sinusoidal, a => Real.sin a
  | softplus b t, a => if t < a * b then a else Real.log (1 + Real.exp (b * a)) / b
  | truncExp, a => Real.exp a
  | custom f _, a => f a

/-- the derivative used by nnj -/
noncomputable def deriv : Act → ℝ → ℝ
  | relu, a => if 0 < a then 1 else 0
  | sigmoid, a => (1 / (1 + Real.exp (-a))) * (1 - 1 / (1 + Real.exp (-a)))
  | tanh, a => 1 - Real.tanh a * Real.tanh a
  | sinusoidal, a => Real.cos a
  | softplus b _, a => 1 / (1 + Real.exp (-(b * a)))
  | truncExp, a => Real.exp (max (-15) (min 15 a))
  | custom f g, a => g a (f a)

/-- where it is the derivative: no condition for the smooth ones; for a user-defined layer this is what its author has to provide -/
def smoothAt : Act → ℝ → Prop
  | relu, a => a ≠ 0
  | softplus b t, a => b ≠ 0 ∧ a * b < t
  | truncExp, a => |a| ≤ 15
  | custom f g, a => HasDerivAt f (g a (f a)) a
  | _, _ => True

/-- semantics of the elementwise layer -/
noncomputable def sem (a : Act) (n : Nat) : Sem n n 0 :=
  Sem.leaf0 (fun x i => a.fn (x i)) (fun x => diagonal fun i => a.deriv (x i)) (fun x => ∀ i, a.smoothAt (x i))

end Act

/-- semantics of Flatten and Reshape: the flattened sample is unchanged -/
noncomputable def reshapeSem (n : Nat) : Sem n n 0 := Sem.leaf0 (fun x => x) (fun _ => 1) (fun _ => True)

/-- Euclidean norm -/
noncomputable def norm2 {n : Nat} (x : Fin n → ℝ) : ℝ := Real.sqrt (∑ i, x i * x i)

/-- semantics of L2Norm: `x / (|x| + eps)`, and the matrix used by nnj -/
noncomputable def l2Sem (eps : ℝ) (n : Nat) : Sem n n 0 :=
  Sem.leaf0 (fun x i => 1 / (norm2 x + eps) * x i)
    (fun x i j => 1 / (norm2 x + eps) *
      ((if i = j then 1 else 0) - (1 / (norm2 x + eps) * x i) * (1 / (norm2 x + eps) * x j)))
    (fun x => (eps = 0 ∧ norm2 x ≠ 0) ∨ (eps ≠ 0 ∧ norm2 x = 0))

end NNJ
