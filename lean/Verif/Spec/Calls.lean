import Verif.Spec.Weights

/-!
# Method calls, and histories of method calls
-/

namespace NNJ

/-- A product method of a module with its arguments, except `x` and `val`. -/
inductive Call where
  | forward
  | jacobian (wrt : Wrt)
  | vjp (vector : Tensor ℝ) (wrt : Wrt)
  | mjp (matrix : Option (Tensor ℝ)) (wrt : Wrt)
  | jvp (vector : Tensor ℝ) (wrt : Wrt)
  | jmp (matrix : Option (Tensor ℝ)) (wrt : Wrt)
  | jTmjp (matrix : Option (Tensor ℝ)) (wrt : Wrt) (fromDiag toDiag diagBackprop : Bool)
  | jmjTp (matrix : PyVal ℝ) (wrt : Wrt) (fromDiag toDiag diagBackprop : Bool)

/-- Make the call on module `m`. -/
def Call.run (m : Mod ℝ) (x : Tensor ℝ) (val : Option (Tensor ℝ)) : Call → Prog ℝ (PyVal ℝ)
  | forward => do
    let r ← m.forward x
    pure (.tensor r)
  | jacobian wrt => do
    let r ← m.jacobian x val wrt
    pure (.ofOption r)
  | vjp v wrt => do
    let r ← m.vjp x val v wrt
    pure (.ofOption r)
  | mjp M wrt => do
    let r ← m.mjp x val M wrt
    pure (.ofOption r)
  | jvp v wrt => do
    let r ← m.jvp x val v wrt
    pure (.ofOption r)
  | jmp M wrt => do
    let r ← m.jmp x val M wrt
    pure (.ofOption r)
  | jTmjp M wrt fd td db => m.jTmjp x val M wrt fd td db
  | jmjTp M wrt fd td db => do
    let r ← m.jmjTp x val M wrt fd td db
    pure (.ofOption r)

/-- The arguments fit the network and the batch size `B` (all arguments given). -/
def Call.Valid {s s' : List Nat} {n k p : Nat} (N : Net s n s' k p) (B : Nat) : Call → Prop
  | forward => True
  | jacobian .input => True
  | jacobian .weight => 0 < p ∨ N.FwdW
  | vjp v .input => v.shape = [B, k]
  | vjp v .weight => v.shape = [B, k]
  | mjp (some M) .input => ∃ r > 0, M.shape = [B, r, k]
  | mjp (some M) .weight => ∃ r > 0, M.shape = [B, r, k]
  | jvp v .input => N.FwdI ∧ v.shape = [B, n]
  | jvp v .weight => N.FwdI ∧ N.FwdW ∧ v.shape = [B, p]
  | jmp (some M) .input => N.FwdI ∧ ∃ r, M.shape = [B, n, r]
  | jmp (some M) .weight => N.FwdI ∧ N.FwdW ∧ ∃ r, M.shape = [B, p, r]
  | jTmjp (some M) .input fd td db => M.shape = (if fd then [B, k] else [B, k, k]) ∧ (db → fd ∧ td)
  | jTmjp (some M) .weight fd td db => M.shape = (if fd then [B, k] else [B, k, k]) ∧ (db → fd ∧ td)
  | jmjTp (.tensor M) .input fd td db => N.FwdI ∧ M.shape = (if fd then [B, n] else [B, n, n]) ∧ (db → fd ∧ td)
  | jmjTp (.tensor M) .weight fd td db => N.FwdI ∧ 0 < p ∧ M.shape = (if fd then [B, p] else [B, p, p]) ∧ (db → fd ∧ td)
  | _ => False

/-- all methods but `jacobian` -/
def Call.NotJacobian : Call → Prop
  | jacobian _ => False
  | _ => True

/-- the products that use the caches of the last forward pass when `val` is given -/
def Call.Backward : Call → Prop
  | vjp _ _ | mjp _ _ | jTmjp _ _ _ _ _ | jmjTp _ _ _ _ _ => True
  | _ => False

/-- Equality of results: tensors of equal shape and entries, lists entry by entry. -/
inductive PEq : PyVal ℝ → PyVal ℝ → Prop
  | none : PEq .none .none
  | tensor {t t' : Tensor ℝ} : TEq t t' → PEq (.tensor t) (.tensor t')
  | list {vs vs' : List (PyVal ℝ)} : List.Forall₂ PEq vs vs' → PEq (.list vs) (.list vs')

/-- Any use of a network object: `m(x)`, a method with arbitrary arguments, `set_weight`. -/
inductive Event where
  | call (x : Tensor ℝ)
  | method (x : Tensor ℝ) (val : Option (Tensor ℝ)) (c : Call)
  | setWeight (v : Tensor ℝ)

/-- The state after it, whether it returns or raises. -/
def Event.after (m : Mod ℝ) (st : Store ℝ) : Event → Store ℝ
  | call x => (m.call x st).2
  | method x val c => (c.run m x val st).2
  | setWeight v => (m.setWeight v st).2

/-- a network of any type -/
structure AnyNet where
  {s s' : List Nat}
  {n k p : Nat}
  net : Net s n s' k p

/-- The state after a history of uses of any networks (the network of interest, parts of it, others). -/
noncomputable def runHistory : List (AnyNet × Event) → Store ℝ → Store ℝ
  | [], st => st
  | (M, e) :: h, st => runHistory h (e.after M.net.mod st)

/-- The state after a list of product calls on `m` at the same `x`, each with `val=None` (`false`) or
with the given `val` (`true`). -/
def runCalls (m : Mod ℝ) (x val : Tensor ℝ) : List (Call × Bool) → Store ℝ → Store ℝ
  | [], st => st
  | (c, useVal) :: cs, st => runCalls m x val cs (c.run m x (if useVal then some val else none) st).2

end NNJ
