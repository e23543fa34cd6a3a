import Verif.Model.Work

/-!
# Sizes of networks, for C81
-/

namespace NNJ
namespace Work

/-- No size is 0 (nnj/linear.py:10, conv2d.py:16). -/
def Layer.Pos : Layer → Prop
  | .linear i o _ => 0 < i ∧ 0 < o
  | .conv c1 h1 w1 c2 h2 w2 kh kw _ _ => 0 < c1 ∧ 0 < h1 ∧ 0 < w1 ∧ 0 < c2 ∧ 0 < h2 ∧ 0 < w2 ∧ 0 < kh ∧ 0 < kw
  | _ => True

mutual
/-- No size of a layer is 0 (nnj/sequential.py:10-28). -/
def Net.Pos : Net → Prop
  | .layer l => l.Pos
  | .seq c => c.Pos
  | .skip _ c => c.Pos
/-- The same for the modules of a Sequential (nnj/sequential.py:10-28). -/
def Chain.Pos : Chain → Prop
  | .nil => True
  | .cons m c => m.Pos ∧ c.Pos
end

/-- Layers with a forward mode (nnj/conv2d.py:75, maxpool2d.py:72 and upsample.py:53 have none). -/
def Layer.Fwd : Layer → Prop
  | .conv .. => False
  | .maxpool .. => False
  | .upsample .. => False
  | _ => True

mutual
/-- All layers have a forward mode (nnj/sequential.py:10-28). -/
def Net.Fwd : Net → Prop
  | .layer l => l.Fwd
  | .seq c => c.Fwd
  | .skip _ c => c.Fwd
/-- The same for the modules of a Sequential (nnj/sequential.py:10-28). -/
def Chain.Fwd : Chain → Prop
  | .nil => True
  | .cons m c => m.Fwd ∧ c.Fwd
end

end Work
end NNJ
