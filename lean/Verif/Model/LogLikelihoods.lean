import Verif.Model.Basic
import Verif.Model.Activations

/-!
# nnj/log_likelihoods.py
-/

namespace NNJ
namespace LogLik
open Tensor

variable {α : Type}

/-- Value of the constructor argument `aggregate_batch`.  nnj/log_likelihoods.py:12. -/
inductive AggArg where
  | none
  | returnAll
  | sum
  | average
  | other
  deriving DecidableEq, Repr

/-- Value of the constructor arguments `metric_shape`, `metric_backprop`.  nnj/log_likelihoods.py:13-14. -/
inductive ShapeArg where
  | full
  | diag
  | other
  deriving DecidableEq, Repr

/-- Value of the constructor argument `metric_backprop`, nnj/log_likelihoods.py:14 -/
inductive BackpropArg where
  | exact
  | approx
  | other
  deriving DecidableEq, Repr

/-- Attributes of a likelihood object.  nnj/log_likelihoods.py:22-24. -/
structure Cfg where
  agg : AggArg
  shape : ShapeArg
  backprop : BackpropArg

/-- Constructor, nnj/log_likelihoods.py:10-24: the three assertions.  Defaults: "return all", "diag",
"exact". -/
def init (agg : AggArg := .returnAll) (shape : ShapeArg := .diag) (backprop : BackpropArg := .exact) :
    Res Cfg := do
  assertR (agg = .none ∨ agg = .sum ∨ agg = .average)
  assertR (shape = .full ∨ shape = .diag)
  assertR (backprop = .exact ∨ backprop = .approx)
  pure ⟨agg, shape, backprop⟩

/-- `target.shape` when `target is None` is an AttributeError; then
`assert val.shape == target.shape`.  nnj/log_likelihoods.py:32, 54, 101, 126, 177, 201. -/
def checkTarget (val : Tensor α) (target : Option (Tensor α)) : Res (Tensor α) :=
  match target with
  | none => .error .attribute
  | some t => do
    assertR (val.shape = t.shape)
    pure t

section
variable [Zero α] [Add α] [Div α] [NatCast α]

/-- `torch.mean(t)`.  nnj/log_likelihoods.py:42, 114, 189. -/
def meanAll (t : Tensor α) : Tensor α := (sumAll t).map fun a => a / ((t.numel : Nat) : α)

/-- `torch.mean(t, dim=0)`.  nnj/log_likelihoods.py:64, 93 and so on. -/
def mean0 (t : Tensor α) : Res (Tensor α) := do
  let n ← t.dim 0
  let s ← t.sum0
  pure (s.map fun a => a / ((n : Nat) : α))

/-- aggregation of per-sample values in `forward` (e.g. log_likelihoods.py:37-42): falls through to
`None` when `aggregate_batch` is None -/
def aggForward (agg : AggArg) (t : Tensor α) : Res (Option (Tensor α)) :=
  match agg with
  | .returnAll => .ok (some t)
  | .sum => .ok (some (sumAll t))
  | .average => .ok (some (meanAll t))
  | _ => .ok none

/-- aggregation of gradients and metrics (e.g. log_likelihoods.py:59-64, 88-93): torch.sum/mean of
something that is not a tensor is a TypeError -/
def aggValue (agg : AggArg) (v : PyVal α) : Res (PyVal α) :=
  match agg with
  | .returnAll => .ok v
  | .sum => do
    let t ← v.toTensor
    .tensor <$> t.sum0
  | .average => do
    let t ← v.toTensor
    .tensor <$> mean0 t
  | _ => .ok .none

end

section
variable [Zero α] [One α] [Add α] [Sub α] [Neg α] [Mul α] [Div α] [NatCast α] [Trans α]

/-- nnj/log_likelihoods.py:29-42 -/
def gaussianForward (cfg : Cfg) (model : Mod α) (x : Tensor α) (target : Option (Tensor α)) :
    Prog α (Option (Tensor α)) := do
  let b ← (x.dim 0 : Res _)
  let val ← model.call x
  let t ← (checkTarget val target : Res _)
  let d ← (val.sub t : Res _)
  let lg := d.map fun a => -(1 / ((2 : Nat) : α)) * (a * a)
  let lg ← (lg.reshapeInfer [b] [] : Res _)
  let lg ← (lg.sum1 : Res _)
  (aggForward cfg.agg lg : Res _)

/-- nnj/log_likelihoods.py:45-64 -/
def gaussianGradient (cfg : Cfg) (model : Mod α) (x : Tensor α) (target : Option (Tensor α)) (wrt : Wrt) :
    Prog α (PyVal α) := do
  let b ← (x.dim 0 : Res _)
  let val ← model.call x
  let t ← (checkTarget val target : Res _)
  let r ← (t.sub val : Res _)
  let r ← (r.reshapeInfer [b] [] : Res _)
  let g ← model.vjp x (some val) r wrt
  (aggValue cfg.agg (PyVal.ofOption g) : Res _)

/-- nnj/log_likelihoods.py:67-93 -/
def gaussianGgn (cfg : Cfg) (model : Mod α) (x : Tensor α) (wrt : Wrt) : Prog α (PyVal α) := do
  let b ← (x.dim 0 : Res _)
  let val ← model.call x
  let h := (onesLike val).map fun a => -a
  let h ← (h.reshapeInfer [b] [] : Res _)
  let r ← model.jTmjp x (some val) (some h) wrt true (cfg.shape = .diag) (cfg.backprop = .approx)
  (aggValue cfg.agg r : Res _)

/-- nnj/log_likelihoods.py:98-114.  `logsumexp` of the stack of `val` and 0 is
`log (exp val + exp 0)` (torch evaluates it in a stabilised order). -/
def binaryForward (cfg : Cfg) (model : Mod α) (x : Tensor α) (target : Option (Tensor α)) :
    Prog α (Option (Tensor α)) := do
  let b ← (x.dim 0 : Res _)
  let val ← model.call x
  let t ← (checkTarget val target : Res _)
  let logNorm := val.map fun v => Trans.log (Trans.exp v + Trans.exp 0)
  let class0 := logNorm.map fun a => 0 - a
  let class1 ← (val.sub logNorm : Res _)
  let a1 ← (t.mul class1 : Res _)
  let a0 ← ((t.map fun a => 1 - a).mul class0 : Res _)
  let lb ← (a1.add a0 : Res _)
  let lb ← (lb.reshapeInfer [b] [] : Res _)
  let lb ← (lb.sum1 : Res _)
  (aggForward cfg.agg lb : Res _)

/-- `torch.exp(val) / (1.0 + torch.exp(val))`, nnj/log_likelihoods.py:128, 150 -/
def binaryProb (val : Tensor α) : Tensor α := val.map fun v => Trans.exp v / (1 + Trans.exp v)

/-- nnj/log_likelihoods.py:117-137 -/
def binaryGradient (cfg : Cfg) (model : Mod α) (x : Tensor α) (target : Option (Tensor α)) (wrt : Wrt) :
    Prog α (PyVal α) := do
  let b ← (x.dim 0 : Res _)
  let val ← model.call x
  let t ← (checkTarget val target : Res _)
  let r ← (t.sub (binaryProb val) : Res _)
  let r ← (r.reshapeInfer [b] [] : Res _)
  let g ← model.vjp x (some val) r wrt
  (aggValue cfg.agg (PyVal.ofOption g) : Res _)

/-- nnj/log_likelihoods.py:140-169 -/
def binaryGgn (cfg : Cfg) (model : Mod α) (x : Tensor α) (wrt : Wrt) : Prog α (PyVal α) := do
  let b ← (x.dim 0 : Res _)
  let val ← model.call x
  let h := (binaryProb val).map fun p => p * p - p
  let h ← (h.reshapeInfer [b] [] : Res _)
  let r ← model.jTmjp x (some val) (some h) wrt true (cfg.shape = .diag) (cfg.backprop = .approx)
  (aggValue cfg.agg r : Res _)

/-- For every entry, the sum over the last dimension of `f`, expanded to the shape of `t`:
`torch.sum(f(t), dim=-1).unsqueeze(-1).expand(t.shape)`.  nnj/log_likelihoods.py:179, 204, 231. -/
def lastSum (f : α → α) (t : Tensor α) : Res (Tensor α) :=
  match t.shape.getLast? with
  | none => .error .index
  | some c => .ok ⟨t.shape, fun k => sumRange c fun j => f (t.data ((k / c) * c + j))⟩

/-- nnj/log_likelihoods.py:174-189 -/
def bernoulliForward (cfg : Cfg) (model : Mod α) (x : Tensor α) (target : Option (Tensor α)) :
    Prog α (Option (Tensor α)) := do
  let b ← (x.dim 0 : Res _)
  let val ← model.call x
  let t ← (checkTarget val target : Res _)
  let s ← (lastSum Trans.exp val : Res _)
  let logNorm := s.map Trans.log
  let lp ← (val.sub logNorm : Res _)
  let lb ← (t.mul lp : Res _)
  let lb ← (lb.reshapeInfer [b] [] : Res _)
  let lb ← (lb.sum1 : Res _)
  (aggForward cfg.agg lb : Res _)

/-- `exp_val / normalization`, nnj/log_likelihoods.py:203-205, 230-232 -/
def bernoulliProb (val : Tensor α) : Res (Tensor α) := do
  let e := val.map Trans.exp
  let s ← lastSum Trans.exp val
  zipWithB (· / ·) e s

/-- nnj/log_likelihoods.py:192-215 -/
def bernoulliGradient (cfg : Cfg) (model : Mod α) (x : Tensor α) (target : Option (Tensor α)) (wrt : Wrt) :
    Prog α (PyVal α) := do
  let b ← (x.dim 0 : Res _)
  let val ← model.call x
  let t ← (checkTarget val target : Res _)
  let p ← (bernoulliProb val : Res _)
  let r ← (t.sub p : Res _)
  let r ← (r.reshapeInfer [b] [] : Res _)
  let g ← model.vjp x (some val) r wrt
  (aggValue cfg.agg (PyVal.ofOption g) : Res _)

/-- nnj/log_likelihoods.py:225-245: the metric.  `l = val[0].numel() / c` is a Python float: when it is
not 1, `reshape(b, c, c, l)` (line 241) raises TypeError; `c = 0` is a ZeroDivisionError.  The
ellipsis of "...i,...j->...ij" is expanded to the rank of `val`. -/
def bernoulliHessian (b : Nat) (val : Tensor α) : Res (Tensor α) := do
  let c ← match val.shape.getLast? with
    | some c => pure c
    | none => .error .index
  let n ← val.numel0
  if c = 0 then .error .value
  else do
    let p ← bernoulliProb val
    let diag ← p.diagEmbed
    let e := ['a', 'b', 'c', 'd', 'e', 'f', 'g', 'h'].take (val.shape.length - 1)
    let outer ← einsum [e ++ ['i'], e ++ ['j']] (e ++ ['i', 'j']) [p, p]
    let h ← outer.sub diag
    if n = c then h.reshape [b, c, c] else .error .type

/-- nnj/log_likelihoods.py:218-261 -/
def bernoulliGgn (cfg : Cfg) (model : Mod α) (x : Tensor α) (wrt : Wrt) : Prog α (PyVal α) := do
  let b ← (x.dim 0 : Res _)
  let val ← model.call x
  let h ← (bernoulliHessian b val : Res _)
  let r ← model.jTmjp x (some val) (some h) wrt false (cfg.shape = .diag) (cfg.backprop = .approx)
  (aggValue cfg.agg r : Res _)

end
end LogLik
end NNJ
