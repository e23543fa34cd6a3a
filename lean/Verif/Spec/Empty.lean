import Verif.Spec.Loose

/-!
# Networks on batches without samples

Which layers cannot be used when the batch is empty (`x.shape[0] == 0`).
-/

namespace NNJ

mutual
/-- `forward` has to infer a size: a Flatten, an L2Norm, or a Reshape with a size left open occurs somewhere
(nnj/flatten.py:16, nnj/l2norm.py:18, nnj/reshape.py:17) -/
def Net.RejFwd : {s s' : List Nat} → {n k p : Nat} → Net s n s' k p → Prop
  | _, _, _, _, _, .linear .. => False
  | _, _, _, _, _, .act .. => False
  | _, _, _, _, _, .flatten .. => True
  | _, _, _, _, _, .reshape _ _ _ _ _ _ _ z _ => (-1 : Int) ∈ z
  | _, _, _, _, _, .l2norm .. => True
  | _, _, _, _, _, .conv .. => False
  | _, _, _, _, _, .upsample .. => False
  | _, _, _, _, _, .maxpool .. => False
  | _, _, _, _, _, .seq _ c => c.RejFwd
  | _, _, _, _, _, .skip _ _ c => c.RejFwd
/-- one of the modules has such a `forward` -/
def Chain.RejFwd : {s s' : List Nat} → {n k p l : Nat} → Chain s n s' k p l → Prop
  | _, _, _, _, _, _, .nil .. => False
  | _, _, _, _, _, _, .snoc c m => c.RejFwd ∨ m.RejFwd
end

mutual
/-- the Jacobian with respect to the input has to infer a size, or looks at sample 0: an activation, an L2Norm or a SkipConnection occurs
(e.g. nnj/relu.py:22, nnj/l2norm.py:36, nnj/skipconnection.py:30) -/
def Net.RejIn : {s s' : List Nat} → {n k p : Nat} → Net s n s' k p → Prop
  | _, _, _, _, _, .linear .. => False
  | _, _, _, _, _, .act .. => True
  | _, _, _, _, _, .flatten .. => False
  | _, _, _, _, _, .reshape .. => False
  | _, _, _, _, _, .l2norm .. => True
  | _, _, _, _, _, .conv .. => False
  | _, _, _, _, _, .upsample .. => False
  | _, _, _, _, _, .maxpool .. => False
  | _, _, _, _, _, .seq _ c => c.RejIn
  | _, _, _, _, _, .skip .. => True
/-- one of the modules has such a Jacobian -/
def Chain.RejIn : {s s' : List Nat} → {n k p l : Nat} → Chain s n s' k p l → Prop
  | _, _, _, _, _, _, .nil .. => False
  | _, _, _, _, _, _, .snoc c m => c.RejIn ∨ m.RejIn
end

mutual
/-- the products with the Jacobian with respect to the weights have to infer a size, or look at sample 0: a Linear layer or a SkipConnection occurs
(nnj/linear.py:85, 88, 186, 188, 210, 212, nnj/skipconnection.py:78, 151, 171) -/
def Net.RejW : {s s' : List Nat} → {n k p : Nat} → Net s n s' k p → Prop
  | _, _, _, _, _, .linear .. => True
  | _, _, _, _, _, .act .. => False
  | _, _, _, _, _, .flatten .. => False
  | _, _, _, _, _, .reshape .. => False
  | _, _, _, _, _, .l2norm .. => False
  | _, _, _, _, _, .conv .. => False
  | _, _, _, _, _, .upsample .. => False
  | _, _, _, _, _, .maxpool .. => False
  | _, _, _, _, _, .seq _ c => c.RejW
  | _, _, _, _, _, .skip .. => True
/-- one of the modules has such products -/
def Chain.RejW : {s s' : List Nat} → {n k p l : Nat} → Chain s n s' k p l → Prop
  | _, _, _, _, _, _, .nil .. => False
  | _, _, _, _, _, _, .snoc c m => c.RejW ∨ m.RejW
end

/-- a call that does not return -/
def NoReturn {β : Type} (call : Prog ℝ β) (st : Store ℝ) : Prop := ∃ e st', call st = (.error e, st')

end NNJ
