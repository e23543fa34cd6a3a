import Verif.Model.Dtype

/-!
# Words for the statements about dtypes
-/

namespace NNJ.Dt

/-- A tensor of dtype `d`, no digit of which was lost to a lower precision than `d`.
E.g. nnj/conv2d.py:240, 245 (a tensor of dtype double with rounded numbers). -/
def DT.Is (d : DType) (t : DT) : Prop := t.ty = d ∧ d.min t.acc = d

/-- The call raises no dtype error, and what it returns (if it returns) satisfies `P`.
E.g. nnj/conv2d.py:176. -/
def Fine {β : Type} (P : β → Prop) : DRes β → Prop
  | .error err => err ≠ .dtype
  | .ok v => P v

/-- `None` or a tensor of dtype `d`.  E.g. nnj/sequential.py:288. -/
def OptIs (d : DType) (o : Option DT) : Prop := ∀ t, o = some t → t.Is d

/-- A tensor of dtype `d`, not `None`.  E.g. nnj/sequential.py:248. -/
def SomeIs (d : DType) (o : Option DT) : Prop := ∃ t, o = some t ∧ t.Is d

/-- `None`, a tensor of dtype `d`, or a list of such tensors (nnj/sequential.py:341-347). -/
def JT.Is (d : DType) : JT → Prop
  | .none => True
  | .one t => t.Is d
  | .many ts => ∀ t ∈ ts, t.Is d

/-- Layers in which no tensor of the default dtype `δ` spoils a computation in dtype `d`
(nnj/conv2d.py:221, 331, 506, 628, nnj/l2norm.py:41, nnj/maxpool2d.py:175, 214, 265,
nnj/upsample.py:132, 172, 226, 270). -/
def Leaf.Safe (δ d : DType) : Leaf → Prop
  | .linear _ _ => True
  | .conv _ _ vmap => vmap = true ∨ δ = d
  | .act _ => True
  | .reshape => True
  | .l2norm => δ.max d = d
  | .pool => δ = d
  | .upsample => δ = d

mutual
/-- All layers of the network are safe.  E.g. nnj/conv2d.py:221. -/
def DNet.Safe (δ d : DType) : DNet → Prop
  | .leaf l => l.Safe δ d
  | .seq c => c.Safe δ d
  | .skip c => c.Safe δ d
/-- All layers of the modules are safe.  E.g. nnj/conv2d.py:221. -/
def DChain.Safe (δ d : DType) : DChain → Prop
  | .nil => True
  | .cons n c => n.Safe δ d ∧ c.Safe δ d
end

/-- A Conv2d on its own, not inside a Sequential or SkipConnection.  E.g. nnj/conv2d.py:54. -/
def DNet.bareConv : DNet → Bool
  | .leaf (.conv _ _ _) => true
  | _ => false

mutual
/-- Whether some layer of the network satisfies `p`.  E.g. nnj/maxpool2d.py:175. -/
def DNet.has (p : Leaf → Bool) : DNet → Bool
  | .leaf l => p l
  | .seq c => c.has p
  | .skip c => c.has p
/-- Whether some layer of the modules satisfies `p`.  E.g. nnj/maxpool2d.py:175. -/
def DChain.has (p : Leaf → Bool) : DChain → Bool
  | .nil => false
  | .cons n c => n.has p || c.has p
end

/-- MaxPool2d and Upsample (nnj/maxpool2d.py, nnj/upsample.py). -/
def Leaf.isResize : Leaf → Bool
  | .pool => true
  | .upsample => true
  | _ => false

/-- Linear and Conv2d (nnj/linear.py, nnj/conv2d.py). -/
def Leaf.isParam : Leaf → Bool
  | .linear _ _ => true
  | .conv _ _ _ => true
  | _ => false

/-- A Conv2d built with `use_vmap_for_backprop=False` (nnj/conv2d.py:37). -/
def Leaf.isLoopConv : Leaf → Bool
  | .conv _ _ false => true
  | _ => false

/-- Every parameter of the network has dtype `d`.  E.g. nnj/abstract_jacobian.py:243. -/
def Env.ParamsAre (e : Env) (n : DNet) (d : DType) : Prop := ∀ i ∈ n.params, e.par i = d

end NNJ.Dt
