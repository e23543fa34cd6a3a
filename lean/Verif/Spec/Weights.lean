import Verif.Spec.Api
import Verif.Model.AbstractJacobian

/-!
# Vocabulary for `get_weight` / `set_weight`
-/

namespace NNJ

mutual
/-- identities of the `nn.Parameter`s of a network, in the order of the layers, weight before bias -/
def Net.paramIds : {s s' : List Nat} → {n k p : Nat} → Net s n s' k p → List Nat
  | _, _, _, _, _, .linear _ wId bId _ _ _ _ => wId :: bId.toList
  | _, _, _, _, _, .act _ _ _ _ _ _ => []
  | _, _, _, _, _, .flatten _ _ _ _ _ => []
  | _, _, _, _, _, .reshape _ _ _ _ _ _ _ _ _ => []
  | _, _, _, _, _, .l2norm _ _ _ _ _ _ _ => []
  | _, _, _, _, _, .conv _ wId bId _ => wId :: bId.toList
  | _, _, _, _, _, .upsample _ _ _ _ _ _ _ _ _ => []
  | _, _, _, _, _, .maxpool _ _ => []
  | _, _, _, _, _, .seq _ c => c.paramIds
  | _, _, _, _, _, .skip _ _ ch => ch.paramIds
def Chain.paramIds : {s s' : List Nat} → {n k p l : Nat} → Chain s n s' k p l → List Nat
  | _, _, _, _, _, _, .nil _ _ _ _ => []
  | _, _, _, _, _, _, .snoc c m => c.paramIds ++ m.paramIds
end

/-- total number of elements of a list of parameters -/
def flatLen (st : Store ℝ) : List Nat → Nat
  | [] => 0
  | i :: is => (st.param i).numel + flatLen st is

/-- entry `k` of the concatenation -/
def flatAt (st : Store ℝ) : List Nat → Nat → ℝ
  | [], _ => 0
  | i :: is, k => if k < (st.param i).numel then (st.param i).data k else flatAt st is (k - (st.param i).numel)

/-- `t` has shape `[n]` and `t[i] = f i`. -/
def IsVec1 (t : Tensor ℝ) (n : Nat) (f : Fin n → ℝ) : Prop := t.shape = [n] ∧ ∀ i : Fin n, t.data i = f i

/-- the 1-dimensional tensor with given entries -/
def ofVec {n : Nat} (f : Fin n → ℝ) : Tensor ℝ := ⟨[n], fun k => if h : k < n then f ⟨k, h⟩ else 0⟩

/-- The map `w ↦ flattened b-th output of forward(x) after set_weight(w)`.  (0 if one of the calls
raises; the theorems that use it also say that they do not raise.) -/
noncomputable def weightMap {p k : Nat} (m : Mod ℝ) (st : Store ℝ) (x : Tensor ℝ) (b : Nat) (w : Fin p → ℝ) : Fin k → ℝ :=
  fun i => match ((do m.setWeight (ofVec w); m.forward x : Prog ℝ (Tensor ℝ)) st).1 with
    | .ok t => t.data (b * k + i)
    | .error _ => 0

/-- the module is a `nnj.SkipConnection(...)` -/
def Net.IsSkip {s s' : List Nat} {n k p : Nat} : Net s n s' k p → Prop
  | .skip _ _ _ => True
  | _ => False

mutual
/-- `N` occurs inside the network `N'`, the parameters of `N` starting at offset `off` of the weights of `N'`. -/
inductive SubAt : {s s' t t' : List Nat} → {n k p n' k' p' : Nat} → Net s n s' k p → Net t n' t' k' p' → Nat → Prop
  | refl {s s' : List Nat} {n k p : Nat} (N : Net s n s' k p) : SubAt N N 0
  | seq {s s' t t' : List Nat} {n k p n' k' p' l : Nat} {N : Net s n s' k p} {off : Nat} (id : Nat) {c : Chain t n' t' k' p' (l + 1)} :
      SubAtC N c off → SubAt N (.seq id c) off
  | skip {s s' : List Nat} {a a' : Nat} {r : List Nat} {n k p n' k' p' l : Nat} {N : Net s n s' k p} {off : Nat} (id fid : Nat)
      {c : Chain (a :: r) n' (a' :: r) k' p' (l + 1)} : SubAtC N c off → SubAt N (.skip id fid c) off
/-- the same inside a list of modules -/
inductive SubAtC : {s s' t t' : List Nat} → {n k p n' k' p' l : Nat} → Net s n s' k p → Chain t n' t' k' p' l → Nat → Prop
  | left {s s' t t' t'' : List Nat} {n k p n' k' j p' q l : Nat} {N : Net s n s' k p} {c : Chain t n' t' k' p' l} {off : Nat}
      (m : Net t' k' t'' j q) : SubAtC N c off → SubAtC N (.snoc c m) off
  | right {s s' t t' t'' : List Nat} {n k p n' k' j p' q l : Nat} {N : Net s n s' k p} (c : Chain t n' t' k' p' l) {off : Nat}
      {m : Net t' k' t'' j q} : SubAt N m off → SubAtC N (.snoc c m) (p' + off)
end

end NNJ
