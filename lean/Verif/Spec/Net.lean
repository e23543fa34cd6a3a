import Verif.Spec.Sem
import Verif.Spec.Views
import Verif.Spec.Spatial
import Verif.Model.Linear
import Verif.Model.ReshapeFlatten
import Verif.Model.L2Norm
import Verif.Model.Conv2d
import Verif.Model.Upsample
import Verif.Model.MaxPool2d
import Verif.Model.SkipConnection

/-!
# Networks

`Net s n s' k p`: expressions that build an nnj module object mapping samples of shape `s` (with `n`
elements) to samples of shape `s'` (`k` elements), with `p` parameters.  Object and parameter
identities are explicit, so sharing is visible.  `Chain` is a list of modules that fit together; a
`Sequential` has at least one.
-/

namespace NNJ

/-- the constructor arguments of a Conv2d with these sizes -/
def ConvDims.cfg (g : ConvDims) (bId : Option Nat) : Conv2d.Cfg where
  inChannels := g.c1
  outChannels := g.c2
  kernel := (g.kh, g.kw)
  padding := (g.ph, g.pw)
  hasBias := bId.isSome
  useVmap := g.vmap

/-- `z` are the sizes `dims`, or these with one of them replaced by `-1`, as accepted by `torch.Tensor.reshape`. -/
def OpenShape (z : List Int) (dims : List Nat) : Prop :=
  z = dims.map (↑) ∨ ∃ pre a post, dims = pre ++ a :: post ∧ z = pre.map (↑) ++ -1 :: post.map (↑)

mutual
/-- A module object. -/
inductive Net : List Nat → Nat → List Nat → Nat → Nat → Type
  /-- `nnj.Linear(i, o, bias=...)` -/
  | linear (id wId : Nat) (bId : Option Nat) (i o : Nat) (hi : 0 < i) (ho : 0 < o) :
      Net [i] i [o] o (o * i + biasLen bId o)
  /-- `nnj.ReLU()`, `nnj.Tanh()`, ... on samples of any shape -/
  | act (a : Act) (id : Nat) (s : List Nat) (n : Nat) (hs : size s = n) (hn : 0 < n) : Net s n s n 0
  /-- `nnj.Flatten()` -/
  | flatten (id : Nat) (s : List Nat) (n : Nat) (hs : size s = n) (hn : 0 < n) : Net s n [n] n 0
  /-- `nnj.Reshape(*z)`: `z` is the shape `dims` of the result, possibly with a size left open as `-1` -/
  | reshape (id : Nat) (s dims : List Nat) (n : Nat) (hs : size s = n) (hd : size dims = n) (hn : 0 < n) (z : List Int) (hz : OpenShape z dims) :
      Net s n dims n 0
  /-- `nnj.L2Norm(eps)` on samples of any shape (the model of einsum's ellipsis covers 8 dimensions) -/
  | l2norm (id : Nat) (eps : ℝ) (s : List Nat) (n : Nat) (hs : size s = n) (hr : s.length ≤ 8) (hn : 0 < n) : Net s n s n 0
  /-- `nnj.Conv2d(c1, c2, (kh, kw), padding=(ph, pw), bias=..., use_vmap_for_backprop=...)` -/
  | conv (id wId : Nat) (bId : Option Nat) (g : ConvDims) :
      Net [g.c1, g.h1, g.w1] (g.c1 * g.h1 * g.w1) [g.c2, g.h2, g.w2] (g.c2 * g.h2 * g.w2)
        (g.c2 * g.c1 * g.kh * g.kw + biasLen bId g.c2)
  /-- `nnj.Upsample(scale_factor=r)` with an integer factor -/
  | upsample (id c h w r : Nat) (hc : 0 < c) (hh : 0 < h) (hw : 0 < w) (hr : 0 < r) :
      Net [c, h, w] (c * h * w) [c, h * r, w * r] (c * (h * r) * (w * r)) 0
  /-- `nnj.MaxPool2d(...)` with windows that do not overlap -/
  | maxpool (id : Nat) (g : PoolDims) : Net [g.c, g.h, g.w] (g.c * g.h * g.w) [g.c, g.h2, g.w2] (g.c * g.h2 * g.w2) 0
  /-- `nnj.Sequential(...)` -/
  | seq {s s' : List Nat} {n k p l : Nat} (id : Nat) (c : Chain s n s' k p (l + 1)) : Net s n s' k p
  /-- `nnj.SkipConnection(...)`: the sample is concatenated with the output along dimension 1 -/
  | skip {a c : Nat} {r : List Nat} {n k p l : Nat} (id fid : Nat) (ch : Chain (a :: r) n (c :: r) k p (l + 1)) :
      Net (a :: r) n ((a + c) :: r) (n + k) p

/-- A list of `l` module objects, each fed with the output of the previous one. -/
inductive Chain : List Nat → Nat → List Nat → Nat → Nat → Nat → Type
  | nil (s : List Nat) (n : Nat) (hs : size s = n) (hn : 0 < n) : Chain s n s n 0 0
  | snoc {s s' s'' : List Nat} {n k j p q l : Nat} (c : Chain s n s' k p l) (m : Net s' k s'' j q) :
      Chain s n s'' j (p + q) (l + 1)
end

mutual
/-- the module object -/
noncomputable def Net.mod : {s s' : List Nat} → {n k p : Nat} → Net s n s' k p → Mod ℝ
  | _, _, _, _, _, .linear id wId bId i o _ _ => Linear.mod id wId bId i o
  | _, _, _, _, _, .act a id _ _ _ _ => Activation.toMod a.layer id
  | _, _, _, _, _, .flatten id _ _ _ _ => Resh.flatten id
  | _, _, _, _, _, .reshape id _ _ _ _ _ _ z _ => Resh.reshape z id
  | _, _, _, _, _, .l2norm id eps _ _ _ _ _ => L2Norm.mod eps id
  | _, _, _, _, _, .conv id wId bId g => Conv2d.mod (g.cfg bId) id wId (bId.getD 0)
  | _, _, _, _, _, .upsample id _ _ _ r _ _ _ _ => Upsample.mod ⟨r, 1⟩ id
  | _, _, _, _, _, .maxpool id g => MaxPool2d.mod g.a id
  | _, _, _, _, _, .seq id c => Sequential.mod id true c.mods
  | _, _, _, _, _, .skip id fid ch => SkipConnection.mod id (Sequential.mod fid true ch.mods)
/-- the module objects of a chain -/
noncomputable def Chain.mods : {s s' : List Nat} → {n k p l : Nat} → Chain s n s' k p l → List (Mod ℝ)
  | _, _, _, _, _, _, .nil _ _ _ _ => []
  | _, _, _, _, _, _, .snoc c m => c.mods ++ [m.mod]
end

mutual
/-- identities of all module objects inside -/
def Net.ids : {s s' : List Nat} → {n k p : Nat} → Net s n s' k p → List Nat
  | _, _, _, _, _, .linear id _ _ _ _ _ _ => [id]
  | _, _, _, _, _, .act _ id _ _ _ _ => [id]
  | _, _, _, _, _, .flatten id _ _ _ _ => [id]
  | _, _, _, _, _, .reshape id _ _ _ _ _ _ _ _ => [id]
  | _, _, _, _, _, .l2norm id _ _ _ _ _ _ => [id]
  | _, _, _, _, _, .conv id _ _ _ => [id]
  | _, _, _, _, _, .upsample id _ _ _ _ _ _ _ _ => [id]
  | _, _, _, _, _, .maxpool id _ => [id]
  | _, _, _, _, _, .seq id c => id :: c.ids
  | _, _, _, _, _, .skip id fid ch => id :: fid :: ch.ids
def Chain.ids : {s s' : List Nat} → {n k p l : Nat} → Chain s n s' k p l → List Nat
  | _, _, _, _, _, _, .nil _ _ _ _ => []
  | _, _, _, _, _, _, .snoc c m => c.ids ++ m.ids
end

/-- the identity of the module object itself -/
noncomputable def Net.id {s s' : List Nat} {n k p : Nat} (N : Net s n s' k p) : Nat := N.mod.id

mutual
/-- The state holds a properly constructed network: parameters have their shapes, every Sequential
has its attribute `feature_maps` and exactly one forward hook on each child, and there is no other
hook on the modules inside. -/
def Net.Wired : {s s' : List Nat} → {n k p : Nat} → Net s n s' k p → Store ℝ → Prop
  | _, _, _, _, _, .linear _ wId bId i o _ _, st =>
    (st.param wId).shape = [o, i] ∧ ∀ b ∈ bId, (st.param b).shape = [o]
  | _, _, _, _, _, .act _ _ _ _ _ _, _ => True
  | _, _, _, _, _, .flatten _ _ _ _ _, _ => True
  | _, _, _, _, _, .reshape _ _ _ _ _ _ _ _ _, _ => True
  | _, _, _, _, _, .l2norm _ _ _ _ _ _ _, _ => True
  | _, _, _, _, _, .conv _ wId bId g, st =>
    (st.param wId).shape = [g.c2, g.c1, g.kh, g.kw] ∧ ∀ b ∈ bId, (st.param b).shape = [g.c2]
  | _, _, _, _, _, .upsample _ _ _ _ _ _ _ _ _, _ => True
  | _, _, _, _, _, .maxpool _ _, _ => True
  | _, _, _, _, _, .seq id c, st => (st.fmaps id).isSome ∧ c.Wired id st
  | _, _, _, _, _, .skip _ fid ch, st => (st.fmaps fid).isSome ∧ st.hooks fid = [] ∧ ch.Wired fid st
def Chain.Wired : {s s' : List Nat} → {n k p l : Nat} → Chain s n s' k p l → Nat → Store ℝ → Prop
  | _, _, _, _, _, _, .nil _ _ _ _, _, _ => True
  | _, _, _, _, _, _, .snoc c m, q, st => c.Wired q st ∧ m.Wired st ∧ st.hooks m.mod.id = [q]
end

mutual
/-- the semantics on one sample -/
noncomputable def Net.sem : {s s' : List Nat} → {n k p : Nat} → Net s n s' k p → Sem n k p
  | _, _, _, _, _, .linear _ _ bId i o _ _ => linearSem bId i o
  | _, _, _, _, _, .act a _ _ n _ _ => a.sem n
  | _, _, _, _, _, .flatten _ _ n _ _ => reshapeSem n
  | _, _, _, _, _, .reshape _ _ _ n _ _ _ _ _ => reshapeSem n
  | _, _, _, _, _, .l2norm _ eps _ n _ _ _ => l2Sem eps n
  | _, _, _, _, _, .conv _ _ bId g => convSem bId g.c1 g.h1 g.w1 g.c2 g.h2 g.w2 g.kh g.kw g.ph g.pw
  | _, _, _, _, _, .upsample _ c h w r _ _ _ _ => upSem c h w r
  | _, _, _, _, _, .maxpool _ g => poolSem g.a g.c g.h g.w g.h2 g.w2
  | _, _, _, _, _, .seq _ c => c.sem
  | _, _, _, _, _, .skip _ _ ch => ch.sem.skip
noncomputable def Chain.sem : {s s' : List Nat} → {n k p l : Nat} → Chain s n s' k p l → Sem n k p
  | _, _, _, _, _, _, .nil _ n _ _ => Sem.id n
  | _, _, _, _, _, _, .snoc c m => c.sem.comp m.sem
end

/-- the parameters of a Linear as a vector: weight row-major, then bias -/
noncomputable def linearW (wId : Nat) (bId : Option Nat) (i o : Nat) (st : Store ℝ) : Fin (o * i + biasLen bId o) → ℝ :=
  Fin.append (fun c => (st.param wId).data c) fun c =>
    match bId with
    | some b => (st.param b).data c
    | none => 0

/-- the parameters of a Conv2d as a vector: weight row-major, then bias -/
noncomputable def convW (wId : Nat) (bId : Option Nat) (g : ConvDims) (st : Store ℝ) :
    Fin (g.c2 * g.c1 * g.kh * g.kw + biasLen bId g.c2) → ℝ :=
  Fin.append (fun c => (st.param wId).data c) fun c =>
    match bId with
    | some b => (st.param b).data c
    | none => 0

mutual
/-- the parameter values of a network in the state, as one vector in `get_weight` order -/
noncomputable def Net.w : {s s' : List Nat} → {n k p : Nat} → Net s n s' k p → Store ℝ → Fin p → ℝ
  | _, _, _, _, _, .linear _ wId bId i o _ _, st => linearW wId bId i o st
  | _, _, _, _, _, .act _ _ _ _ _ _, _ => fun _ => 0
  | _, _, _, _, _, .flatten _ _ _ _ _, _ => fun _ => 0
  | _, _, _, _, _, .reshape _ _ _ _ _ _ _ _ _, _ => fun _ => 0
  | _, _, _, _, _, .l2norm _ _ _ _ _ _ _, _ => fun _ => 0
  | _, _, _, _, _, .conv _ wId bId g, st => convW wId bId g st
  | _, _, _, _, _, .upsample _ _ _ _ _ _ _ _ _, _ => fun _ => 0
  | _, _, _, _, _, .maxpool _ _, _ => fun _ => 0
  | _, _, _, _, _, .seq _ c, st => c.w st
  | _, _, _, _, _, .skip _ _ ch, st => ch.w st
noncomputable def Chain.w : {s s' : List Nat} → {n k p l : Nat} → Chain s n s' k p l → Store ℝ → Fin p → ℝ
  | _, _, _, _, _, _, .nil _ _ _ _, _ => fun _ => 0
  | _, _, _, _, _, _, .snoc c m, st => Fin.append (c.w st) (m.w st)
end

mutual
/-- forward-mode products wrt the input are supported by all layers inside -/
def Net.FwdI : {s s' : List Nat} → {n k p : Nat} → Net s n s' k p → Prop
  | _, _, _, _, _, .linear _ _ _ _ _ _ _ => True
  | _, _, _, _, _, .act _ _ _ _ _ _ => True
  | _, _, _, _, _, .flatten _ _ _ _ _ => True
  | _, _, _, _, _, .reshape _ _ _ _ _ _ _ _ _ => True
  | _, _, _, _, _, .l2norm _ _ _ _ _ _ _ => True
  | _, _, _, _, _, .conv _ _ _ _ => False
  | _, _, _, _, _, .upsample _ _ _ _ _ _ _ _ _ => False
  | _, _, _, _, _, .maxpool _ _ => False
  | _, _, _, _, _, .seq _ c => c.FwdI
  | _, _, _, _, _, .skip _ _ ch => ch.FwdI
def Chain.FwdI : {s s' : List Nat} → {n k p l : Nat} → Chain s n s' k p l → Prop
  | _, _, _, _, _, _, .nil _ _ _ _ => True
  | _, _, _, _, _, _, .snoc c m => c.FwdI ∧ m.FwdI
end

mutual
/-- `jmjTp` wrt the weights is supported: no Conv2d inside, and what comes after the first parameter supports forward-mode products wrt the input -/
def Net.PushW : {s s' : List Nat} → {n k p : Nat} → Net s n s' k p → Prop
  | _, _, _, _, _, .linear _ _ _ _ _ _ _ => True
  | _, _, _, _, _, .act _ _ _ _ _ _ => True
  | _, _, _, _, _, .flatten _ _ _ _ _ => True
  | _, _, _, _, _, .reshape _ _ _ _ _ _ _ _ _ => True
  | _, _, _, _, _, .l2norm _ _ _ _ _ _ _ => True
  | _, _, _, _, _, .conv _ _ _ _ => False
  | _, _, _, _, _, .upsample _ _ _ _ _ _ _ _ _ => False
  | _, _, _, _, _, .maxpool _ _ => False
  | _, _, _, _, _, .seq _ c => c.PushW
  | _, _, _, _, _, .skip _ _ ch => ch.PushW
def Chain.PushW : {s s' : List Nat} → {n k p l : Nat} → Chain s n s' k p l → Prop
  | _, _, _, _, _, _, .nil _ _ _ _ => True
  | _, _, _, _, _, _, @Chain.snoc _ _ _ _ _ _ p q _ c m => c.PushW ∧ (p = 0 ∨ m.FwdI) ∧ (q = 0 ∨ m.PushW)
end

mutual
/-- forward-mode products wrt the weights are supported: every SkipConnection inside has parameters -/
def Net.FwdW : {s s' : List Nat} → {n k p : Nat} → Net s n s' k p → Prop
  | _, _, _, _, _, .linear _ _ _ _ _ _ _ => True
  | _, _, _, _, _, .act _ _ _ _ _ _ => True
  | _, _, _, _, _, .flatten _ _ _ _ _ => True
  | _, _, _, _, _, .reshape _ _ _ _ _ _ _ _ _ => True
  | _, _, _, _, _, .l2norm _ _ _ _ _ _ _ => True
  | _, _, _, _, _, .conv _ _ _ _ => True
  | _, _, _, _, _, .upsample _ _ _ _ _ _ _ _ _ => True
  | _, _, _, _, _, .maxpool _ _ => True
  | _, _, _, _, _, .seq _ c => c.FwdW
  | _, _, _, _, _, @Net.skip _ _ _ _ _ p _ _ _ ch => 0 < p ∧ ch.FwdW
def Chain.FwdW : {s s' : List Nat} → {n k p l : Nat} → Chain s n s' k p l → Prop
  | _, _, _, _, _, _, .nil _ _ _ _ => True
  | _, _, _, _, _, _, .snoc c m => c.FwdW ∧ m.FwdW
end

/-- the diagonal blocks of a square matrix whose index set has two parts -/
def blockUL {p q : Nat} (Z : Matrix (Fin (p + q)) (Fin (p + q)) ℝ) : Matrix (Fin p) (Fin p) ℝ :=
  fun i j => Z (Fin.castAdd q i) (Fin.castAdd q j)
def blockLR {p q : Nat} (Z : Matrix (Fin (p + q)) (Fin (p + q)) ℝ) : Matrix (Fin q) (Fin q) ℝ :=
  fun i j => Z (Fin.natAdd p i) (Fin.natAdd p j)

mutual
/-- How a module with parameters returns a full weight-space metric `Z`: a layer returns the tensor of
shape [B, p, p]; a Sequential (or a SkipConnection, for the Sequential inside it) returns the list of
what its children with parameters return for their diagonal blocks of `Z`. -/
def Net.Blocks : {s s' : List Nat} → {n k p : Nat} → Net s n s' k p → PyVal ℝ → (B : Nat) → (Fin B → Matrix (Fin p) (Fin p) ℝ) → Prop
  | _, _, _, _, _, .linear _ _ bId i o _ _, v, B, Z => ∃ t, v = .tensor t ∧ IsMat t B (o * i + biasLen bId o) (o * i + biasLen bId o) Z
  | _, _, _, _, _, .act _ _ _ _ _ _, v, B, Z => ∃ t, v = .tensor t ∧ IsMat t B 0 0 Z
  | _, _, _, _, _, .flatten _ _ _ _ _, v, B, Z => ∃ t, v = .tensor t ∧ IsMat t B 0 0 Z
  | _, _, _, _, _, .reshape _ _ _ _ _ _ _ _ _, v, B, Z => ∃ t, v = .tensor t ∧ IsMat t B 0 0 Z
  | _, _, _, _, _, .l2norm _ _ _ _ _ _ _, v, B, Z => ∃ t, v = .tensor t ∧ IsMat t B 0 0 Z
  | _, _, _, _, _, .conv _ _ bId g, v, B, Z =>
    ∃ t, v = .tensor t ∧ IsMat t B (g.c2 * g.c1 * g.kh * g.kw + biasLen bId g.c2) (g.c2 * g.c1 * g.kh * g.kw + biasLen bId g.c2) Z
  | _, _, _, _, _, .upsample _ _ _ _ _ _ _ _ _, v, B, Z => ∃ t, v = .tensor t ∧ IsMat t B 0 0 Z
  | _, _, _, _, _, .maxpool _ _, v, B, Z => ∃ t, v = .tensor t ∧ IsMat t B 0 0 Z
  | _, _, _, _, _, .seq _ c, v, B, Z => ∃ vs, v = .list vs ∧ c.Blocks vs B Z
  | _, _, _, _, _, .skip _ _ ch, v, B, Z => ∃ vs, v = .list vs ∧ ch.Blocks vs B Z
def Chain.Blocks : {s s' : List Nat} → {n k p l : Nat} → Chain s n s' k p l → List (PyVal ℝ) → (B : Nat) →
    (Fin B → Matrix (Fin p) (Fin p) ℝ) → Prop
  | _, _, _, _, _, _, .nil _ _ _ _, vs, _, _ => vs = []
  | _, _, _, _, _, _, @Chain.snoc _ _ _ _ _ _ _ q _ c m, vs, B, Z =>
    if q = 0 then c.Blocks vs B fun b => blockUL (Z b)
    else ∃ vs' v, vs = vs' ++ [v] ∧ c.Blocks vs' B (fun b => blockUL (Z b)) ∧ m.Blocks v B fun b => blockLR (Z b)
end

end NNJ
