import Verif.Torch.Tensor

/-!
# `torch.einsum`

`einsum% "bij,bj->bi" [A, v]` elaborates the subscript string at compile time into the label
lists and calls `einsum`.  Semantics as in torch: every label has one size; an operand may have
size 1 in a dimension whose label is larger elsewhere (broadcast); repeated labels inside an
operand take the diagonal and must have equal sizes; labels absent from the output are summed.
The ellipsis is not supported (the three uses of `...` in nnj are expanded at the call site).
-/

namespace NNJ
open Tensor

/-- size of label `c`, given all (label, size) pairs of the operands.
Part of `torch.einsum` (e.g. nnj/linear.py:30). -/
def labelDim (pairs : List (Char × Nat)) (c : Char) : Nat :=
  match pairs with
  | [] => 1
  | (c', n) :: ps => if c' = c ∧ n ≠ 1 then n else labelDim ps c

/-- all pairs (label, size) of the operands.  Part of `torch.einsum` (e.g. nnj/linear.py:30). -/
def labelPairs {α : Type} : List (List Char) → List (Tensor α) → List (Char × Nat)
  | l :: ls, t :: ts => l.zip t.shape ++ labelPairs ls ts
  | _, _ => []

/-- ranks match the subscripts.  Part of `torch.einsum` (e.g. nnj/linear.py:30). -/
def ranksOk {α : Type} : List (List Char) → List (Tensor α) → Bool
  | [], [] => true
  | l :: ls, t :: ts => decide (l.length = t.shape.length) && ranksOk ls ts
  | _, _ => false

/-- the sizes of equal labels inside one operand agree.  Part of `torch.einsum` (e.g. nnj/linear.py:30). -/
def diagOk : List (Char × Nat) → Bool
  | [] => true
  | (c, n) :: ps => ps.all (fun q => decide (q.1 = c → q.2 = n)) && diagOk ps

/-- repeated labels agree in every operand; part of `torch.einsum` (e.g. nnj/skipconnection.py:119) -/
def operandsDiagOk {α : Type} : List (List Char) → List (Tensor α) → Bool
  | l :: ls, t :: ts => diagOk (l.zip t.shape) && operandsDiagOk ls ts
  | _, _ => true

/-- value of a label in an environment.  Part of `torch.einsum` (e.g. nnj/linear.py:30). -/
def envGet : List (Char × Nat) → Char → Nat
  | [], _ => 0
  | (c', i) :: e, c => if c' = c then i else envGet e c

/-- index of an operand in an environment (0 along broadcast dimensions).
Part of `torch.einsum` (e.g. nnj/linear.py:30). -/
def operandIdx (env : List (Char × Nat)) : List Char → List Nat → List Nat
  | c :: cs, n :: ns => (if n = 1 then 0 else envGet env c) :: operandIdx env cs ns
  | _, _ => []

/-- product of the operand entries in an environment.  Part of `torch.einsum` (e.g. nnj/linear.py:30). -/
def operandsProd {α : Type} [One α] [Mul α] (env : List (Char × Nat)) :
    List (List Char) → List (Tensor α) → List α
  | l :: ls, t :: ts => t.get (operandIdx env l t.shape) :: operandsProd env ls ts
  | _, _ => []

/-- sum over all values of the labels `cs`.  Part of `torch.einsum` (e.g. nnj/linear.py:30). -/
def sumLabels {α : Type} [Zero α] [Add α] (dimOf : Char → Nat) (f : List (Char × Nat) → α) :
    List Char → List (Char × Nat) → α
  | [], env => f env
  | c :: cs, env => sumRange (dimOf c) fun i => sumLabels dimOf f cs ((c, i) :: env)

/-- distinct labels of the operands that are not in the output, in order of appearance.
Part of `torch.einsum` (e.g. nnj/linear.py:30). -/
def contracted (out : List Char) : List Char → List Char → List Char
  | [], _ => []
  | c :: cs, seen =>
    if c ∈ out ∨ c ∈ seen then contracted out cs seen else c :: contracted out cs (c :: seen)

/-- `torch.einsum(spec, *ops)`.
Called e.g. at nnj/abstract_jacobian.py:70, 86, 126-135, nnj/linear.py:30, nnj/skipconnection.py:119. -/
def einsum {α : Type} [Zero α] [One α] [Add α] [Mul α]
    (ins : List (List Char)) (out : List Char) (ops : List (Tensor α)) : Res (Tensor α) :=
  if ranksOk ins ops && operandsDiagOk ins ops then
    let pairs := labelPairs ins ops
    if pairs.all (fun q => decide (q.2 = 1 ∨ q.2 = labelDim pairs q.1)) then
      .ok (ofFn (out.map (labelDim pairs)) fun idx =>
        sumLabels (labelDim pairs) (fun env => prodList (operandsProd env ins ops))
          (contracted out ins.flatten []) (out.zip idx))
    else .error .shape
  else .error .shape

open Lean in
/-- Subscript strings as in the Python source.  E.g. nnj/linear.py:30. -/
macro "einsum% " s:str ops:term:max : term => do
  let str := s.getString
  let parts := (str.splitOn "->")
  match parts with
  | [lhs, rhs] =>
    let clean (x : String) : List Char := x.toList.filter (· ≠ ' ')
    let mkChars (cs : List Char) : MacroM (TSyntax `term) := do
      let lits : Array (TSyntax `term) := (cs.map fun c => (Syntax.mkCharLit c : TSyntax `term)).toArray
      `([$lits,*])
    let ins ← (lhs.splitOn ",").mapM fun p => mkChars (clean p)
    let insArr : Array (TSyntax `term) := ins.toArray
    let out ← mkChars (clean rhs)
    `(NNJ.einsum [$insArr,*] $out $ops)
  | _ => Macro.throwError "einsum%: malformed subscripts"

end NNJ
