import Verif.Spec.Api

/-!
# Vocabulary for `diag_backprop=True`

`Sem.Q` / `Sem.QW` (Spec/Sem.lean) are the products along the network of the entrywise squares of the
matrices of the single layers.  Here: when such a product is the entrywise square of the product.
-/

namespace NNJ

/-- at most one non-zero entry in each row -/
def OneRow {k n : Nat} (M : Matrix (Fin k) (Fin n) ℝ) : Prop := ∀ i j j', M i j ≠ 0 → M i j' ≠ 0 → j = j'
/-- at most one non-zero entry in each column -/
def OneCol {k n : Nat} (M : Matrix (Fin k) (Fin n) ℝ) : Prop := ∀ i i' j, M i j ≠ 0 → M i' j ≠ 0 → i = i'
/-- no non-zero entry off the diagonal -/
def OnDiag {k n : Nat} (M : Matrix (Fin k) (Fin n) ℝ) : Prop := ∀ (i : Fin k) (j : Fin n), (i : Nat) ≠ j → M i j = 0

/-- not a Sequential or SkipConnection -/
def Net.Leaf : {s s' : List Nat} → {n k p : Nat} → Net s n s' k p → Prop
  | _, _, _, _, _, .seq _ _ => False
  | _, _, _, _, _, .skip _ _ _ => False
  | _, _, _, _, _, _ => True

/-- the layer L2Norm, the only class that inherits its products from AbstractJacobian -/
def Net.IsL2 : {s s' : List Nat} → {n k p : Nat} → Net s n s' k p → Prop
  | _, _, _, _, _, .l2norm .. => True
  | _, _, _, _, _, _ => False

mutual
/-- Input products: inside every list of modules, whenever a module follows others, it has at most one
non-zero entry per row or those before have together at most one per column (at the given weights and
sample). -/
def Net.Exact : {s s' : List Nat} → {n k p : Nat} → Net s n s' k p → (Fin p → ℝ) → (Fin n → ℝ) → Prop
  | _, _, _, _, _, .seq _ c, w, x => c.Exact w x
  | _, _, _, _, _, .skip _ _ c, w, x => c.Exact w x
  | _, _, _, _, _, _, _, _ => True
def Chain.Exact : {s s' : List Nat} → {n k p l : Nat} → Chain s n s' k p l → (Fin p → ℝ) → (Fin n → ℝ) → Prop
  | _, _, _, _, _, _, .nil _ _ _ _, _, _ => True
  | _, _, _, _, _, _, .snoc c m, w, x => c.Exact (wl w) x ∧ m.Exact (wr w) (c.sem.f (wl w) x) ∧
    (OneRow (m.sem.J (wr w) (c.sem.f (wl w) x)) ∨ OneCol (c.sem.J (wl w) x))
end

mutual
/-- Weight products: the same condition, for modules that follow others with parameters. -/
def Net.ExactW : {s s' : List Nat} → {n k p : Nat} → Net s n s' k p → (Fin p → ℝ) → (Fin n → ℝ) → Prop
  | _, _, _, _, _, .seq _ c, w, x => c.ExactW w x
  | _, _, _, _, _, .skip _ _ c, w, x => c.ExactW w x
  | _, _, _, _, _, _, _, _ => True
def Chain.ExactW : {s s' : List Nat} → {n k p l : Nat} → Chain s n s' k p l → (Fin p → ℝ) → (Fin n → ℝ) → Prop
  | _, _, _, _, _, _, .nil _ _ _ _, _, _ => True
  | _, _, _, _, _, _, @Chain.snoc _ _ _ _ _ _ p _ _ c m, w, x => c.ExactW (wl w) x ∧ m.ExactW (wr w) (c.sem.f (wl w) x) ∧
    (p = 0 ∨ m.Exact (wr w) (c.sem.f (wl w) x) ∧
      (OneRow (m.sem.J (wr w) (c.sem.f (wl w) x)) ∨ OneCol (c.sem.JW (wl w) x)))
end

/-- all modules of the list are layers whose matrix, at the sample they receive, is diagonal -/
def Chain.AllDiag : {s s' : List Nat} → {n k p l : Nat} → Chain s n s' k p l → (Fin p → ℝ) → (Fin n → ℝ) → Prop
  | _, _, _, _, _, _, .nil _ _ _ _, _, _ => True
  | _, _, _, _, _, _, .snoc c m, w, x => c.AllDiag (wl w) x ∧ m.Leaf ∧ OnDiag (m.sem.J (wr w) (c.sem.f (wl w) x))

/-- all modules of the list are layers; all but at most one have a diagonal matrix -/
def Chain.AllButOneDiag : {s s' : List Nat} → {n k p l : Nat} → Chain s n s' k p l → (Fin p → ℝ) → (Fin n → ℝ) → Prop
  | _, _, _, _, _, _, .nil _ _ _ _, _, _ => True
  | _, _, _, _, _, _, .snoc c m, w, x => m.Leaf ∧
    (c.AllDiag (wl w) x ∨ c.AllButOneDiag (wl w) x ∧ OnDiag (m.sem.J (wr w) (c.sem.f (wl w) x)))

end NNJ
