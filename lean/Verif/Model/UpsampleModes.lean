import Verif.Model.Upsample

/-!
# nnj/upsample.py with the other constructor arguments of `nn.Upsample`

`nnj.Upsample(*args, **kwargs)` passes its arguments to `torch.nn.Upsample`, whose constructor also accepts `size=`,
a pair of scale factors and other interpolation modes.  Here the methods of `nnj.Upsample` take the inherited `forward` and the
outcome of `int(self.scale_factor)` as arguments; with the options of Model/Upsample they are the methods modelled there (C58_default).
Among the modes only "nearest" and "bilinear" (with `align_corners=False`) are modelled concretely.
-/

namespace NNJ
namespace Upsample
open Tensor

/-- The argument `scale_factor` of `nn.Upsample`, stored as a float or a tuple of floats.  nnj/upsample.py:11-12. -/
inductive ScaleArg where
  | missing
  | scalar (f : Scale)
  | pair (fh fw : Scale)

/-- The argument `mode` of `nn.Upsample`.  nnj/upsample.py:11-12. -/
inductive Mode where
  | nearest
  | bilinear

/-- The arguments of the constructor, nnj/upsample.py:11-12 -/
structure Options where
  size : Option (Nat × Nat) := none
  scale : ScaleArg := .missing
  mode : Mode := .nearest

/-- `int(self.scale_factor)` raises TypeError for `None` and for a tuple.  nnj/upsample.py:136, 142, 175, 181, 222, 230, 242, 271, 277. -/
def Options.intScale (o : Options) : Res Scale :=
  match o.scale with
  | .scalar f => .ok f
  | _ => .error .type

/-- How far images of `h × w` pixels are enlarged: sides of the result, and for each axis the factor `num / den` that maps positions.
`F.interpolate` raises ValueError unless exactly one of `size` and `scale_factor` is given.  Inherited at nnj/upsample.py:10. -/
def Options.target (o : Options) (h w : Nat) : Res ((Nat × Nat) × (Scale × Scale)) :=
  match o.size, o.scale with
  | some s, .missing => .ok (s, (⟨s.1, h⟩, ⟨s.2, w⟩))
  | none, .scalar f => .ok ((h * f.num / f.den, w * f.num / f.den), (f, f))
  | none, .pair fh fw => .ok ((h * fh.num / fh.den, w * fw.num / fw.den), (fh, fw))
  | _, _ => .error .value

section
variable {α : Type} [Zero α] [One α] [Add α] [Sub α] [Mul α] [Div α] [NatCast α]

/-- nearest neighbour along one axis: the entry at `floor(i / factor)`, at most `h - 1`.  Inherited at nnj/upsample.py:10. -/
def nearest1 (f : Scale) (h : Nat) (g : Nat → α) (i : Nat) : α := g (min (i * f.den / f.num) (h - 1))

/-- linear interpolation along one axis (`align_corners=False`): between the entries around `max(0, (i + 1/2) / factor - 1/2)`, which is
`((2 i + 1) den - num) / (2 num)` with the subtraction cut off at 0.  Inherited at nnj/upsample.py:10. -/
def linear1 (f : Scale) (h : Nat) (g : Nat → α) (i : Nat) : α :=
  let p := (2 * i + 1) * f.den - f.num
  let i0 := min (p / (2 * f.num)) (h - 1)
  let i1 := min (i0 + 1) (h - 1)
  let l : α := ((p % (2 * f.num) : Nat) : α) / ((2 * f.num : Nat) : α)
  (1 - l) * g i0 + l * g i1

/-- `F.interpolate` along one axis.  Inherited at nnj/upsample.py:10. -/
def axis (m : Mode) : Scale → Nat → (Nat → α) → Nat → α :=
  match m with
  | .nearest => nearest1
  | .bilinear => linear1

/-- `nn.Upsample.forward`, i.e. `F.interpolate(x, size, scale_factor, mode)`, for 4-dimensional inputs.  Inherited at nnj/upsample.py:10. -/
def Options.forward (o : Options) (x : Tensor α) : Res (Tensor α) :=
  match x.shape with
  | [n, c, h, w] => do
    let ((oh, ow), (fh, fw)) ← o.target h w
    if fh.num = 0 ∨ fh.den = 0 ∨ fw.num = 0 ∨ fw.den = 0 then .error .shape
    else if oh = 0 ∨ ow = 0 then .error .shape
    else
      .ok (ofFn [n, c, oh, ow] fun idx =>
        axis o.mode fh h (fun r => axis o.mode fw w (fun s => x.get [idx.getD 0 0, idx.getD 1 0, r, s]) (idx.getD 3 0)) (idx.getD 2 0))
  | _ => .error .shape

end

section
variable {α : Type} [Zero α] [One α] [Add α] [Mul α]

/-- `if val is None: val = self.forward(x)`, nnj/upsample.py:24-25, 91-92, 129-130, 167-168, 206-207 -/
def anyVal (fwd : Tensor α → Res (Tensor α)) (x : Tensor α) (val : Option (Tensor α)) : Res (Tensor α) :=
  match val with
  | none => fwd x
  | some v => .ok v

/-- nnj/upsample.py:118-151 -/
def anyVjp (fwd : Tensor α → Res (Tensor α)) (sc : Res Scale) (x : Tensor α) (val : Option (Tensor α)) (vector : Tensor α) (wrt : Wrt) :
    Res (Option (Tensor α)) := do
  match wrt with
  | .input => do
    let val ← anyVal fwd x val
    let (b, c1, h1, w1) ← x.dims4
    let (_, c2, h2, w2) ← val.dims4
    assertR (c1 = c2)
    assertR (vector.shape = [b, c2 * h2 * w2])
    let f ← sc
    let r ← pool f vector (b * c2) h2 w2
    some <$> r.reshape [b, c1 * h1 * w1]
  | _ => pure none

/-- nnj/upsample.py:154-190 for a given matrix -/
def anyMjpSome (fwd : Tensor α → Res (Tensor α)) (sc : Res Scale) (x : Tensor α) (val : Option (Tensor α)) (matrix : Tensor α) (wrt : Wrt) :
    Res (Option (Tensor α)) := do
  match wrt with
  | .input => do
    let val ← anyVal fwd x val
    let (b, c1, h1, w1) ← x.dims4
    let (_, c2, h2, w2) ← val.dims4
    assertR (c1 = c2)
    let m0 ← matrix.dim 0
    let m2 ← matrix.dim 2
    assertR (m0 = b ∧ m2 = c2 * h2 * w2)
    let nRows ← matrix.dim 1
    let f ← sc
    let r ← pool f matrix (b * nRows * c2) h2 w2
    some <$> r.reshape [b, nRows, c2 * h1 * w1]
  | _ => pure none

/-- nnj/upsample.py:16-35 -/
def anyJacobian (fwd : Tensor α → Res (Tensor α)) (sc : Res Scale) (x : Tensor α) (val : Option (Tensor α)) (wrt : Wrt) :
    Res (Option (Tensor α)) := do
  match wrt with
  | .input => do
    let val ← anyVal fwd x val
    let (b, c1, _, _) ← x.dims4
    let (_, c2, h2, w2) ← val.dims4
    assertR (c1 = c2)
    let identity ← (ones [b, c2 * h2 * w2] : Tensor α).diagEmbed
    anyMjpSome fwd sc x (some val) identity .input
  | _ => pure none

/-- nnj/upsample.py:154-190 -/
def anyMjp (fwd : Tensor α → Res (Tensor α)) (sc : Res Scale) (x : Tensor α) (val : Option (Tensor α)) (matrix : Option (Tensor α))
    (wrt : Wrt) : Res (Option (Tensor α)) :=
  match matrix with
  | none => anyJacobian fwd sc x val wrt
  | some m => anyMjpSome fwd sc x val m wrt

/-- nnj/upsample.py:59-75 -/
def anyJmp (fwd : Tensor α → Res (Tensor α)) (sc : Res Scale) (x : Tensor α) (val : Option (Tensor α)) (matrix : Option (Tensor α))
    (wrt : Wrt) : Res (Option (Tensor α)) :=
  match matrix with
  | none => anyJacobian fwd sc x val wrt
  | some _ =>
    match wrt with
    | .input => .error .notImplemented
    | _ => .ok none

/-- nnj/upsample.py:78-111: all four flag combinations raise. -/
def anyJmjTp (fwd : Tensor α → Res (Tensor α)) (x : Tensor α) (val : Option (Tensor α)) (_matrix : Option (Tensor α)) (wrt : Wrt)
    (_fromDiag _toDiag _diagBackprop : Bool) : Res (Option (Tensor α)) := do
  let _ ← anyVal fwd x val
  match wrt with
  | .input => .error .notImplemented
  | _ => pure none

/-- nnj/upsample.py:193-286 -/
def anyJTmjp (fwd : Tensor α → Res (Tensor α)) (sc : Res Scale) (x : Tensor α) (val : Option (Tensor α)) (matrix : Option (Tensor α))
    (wrt : Wrt) (fromDiag toDiag _diagBackprop : Bool) : Res (Option (Tensor α)) := do
  let val ← anyVal fwd x val
  let (b, c1, h1, w1) ← x.dims4
  let (_, c2, h2, w2) ← val.dims4
  assertR (c1 = c2)
  let (matrix, fromDiag) ← match matrix with
    | none => do pure (← (onesLike val).reshapeInfer [b] [], true)
    | some m => pure (m, fromDiag)
  if fromDiag then assertR (matrix.shape = [b, c2 * h2 * w2])
  else assertR (matrix.shape = [b, c2 * h2 * w2, c2 * h2 * w2])
  match wrt with
  | .input =>
    match fromDiag, toDiag with
    | false, false => do
      let f ← sc
      some <$> jTmjpFull f b c2 h1 w1 h2 w2 matrix
    | true, false => do
      let m ← matrix.diagEmbed
      let f ← sc
      some <$> jTmjpFull f b c2 h1 w1 h2 w2 m
    | false, true => do
      let f ← sc
      let r ← jTmjpFull f b c2 h1 w1 h2 w2 matrix
      some <$> r.diagonal12
    | true, true => do
      let f ← sc
      let r ← pool f matrix (b * c2) h2 w2
      some <$> r.reshape [b, c1 * h1 * w1]
  | _ => pure none

/-- The methods of one `nnj.Upsample`, nnj/upsample.py:10-286 -/
def anyLayer (fwd : Tensor α → Res (Tensor α)) (sc : Res Scale) : PureLayer α where
  forward := fwd
  jacobian := anyJacobian fwd sc
  jvp := jvp
  jmp := anyJmp fwd sc
  jmjTp := anyJmjTp fwd
  vjp := anyVjp fwd sc
  mjp := anyMjp fwd sc
  jTmjp := anyJTmjp fwd sc

/-- An `nnj.Upsample` whose inherited forward pass is `fwd` and whose `int(self.scale_factor)` has the outcome `sc`, nnj/upsample.py:10-13 -/
def anyMod (fwd : Tensor α → Res (Tensor α)) (sc : Res Scale) (id : Nat) : Mod α := PureLayer.toMod (fun _ => anyLayer fwd sc) id 0 []

/-- `nnj.Upsample(size, scale_factor, mode)` as a module object, nnj/upsample.py:11-13 -/
def Options.mod [Sub α] [Div α] [NatCast α] (o : Options) (id : Nat) : Mod α := anyMod o.forward o.intScale id

end

end Upsample
end NNJ
