import Verif.Model.AbstractJacobian
import Verif.Model.LogLikelihoods

/-!
# The programs of UNet.ipynb and README.md

They use nnj as a library, so they are functions of a module object.  Line numbers refer to the JSON text of the notebook.
Not modelled: the data, the plots, the empirical mean and deviation of the predictions.
-/

namespace NNJ
namespace Notebook
open LogLik Tensor

variable {α : Type} [Zero α] [One α] [Add α] [Sub α] [Neg α] [Mul α] [Div α] [NatCast α] [LT α] [DecidableLT α] [Trans α]

/-- One iteration of the training loop: `val = UNet(x)`, `residual = target - val`,
`gradient = UNet.vjp(x, val, residual.reshape(batch_size, -1), wrt="weight").sum(dim=0)`,
`UNet.set_weight(UNet.get_weight() + gradient)`.  `None` has no attribute `sum`.
UNet.ipynb:162-172.  (The notebook computes `target` from `x`.) -/
def trainStep (model : Mod α) (batchSize : Nat) (x target : Tensor α) : Prog α Unit := do
  let val ← model.call x
  let residual ← (target.sub val : Res _)
  let r ← (residual.reshapeInfer [batchSize] [] : Res _)
  let g ← model.vjp x (some val) r .weight
  match g with
  | none => Prog.throw .attribute
  | some g => do
    let gradient ← (g.sum0 : Res _)
    let w ← model.getWeight
    let w ← (w.add gradient : Res _)
    model.setWeight w

/-- `for step in range(steps)`.  UNet.ipynb:161. -/
def trainLoop (model : Mod α) (batchSize : Nat) (x target : Tensor α) : Nat → Prog α Unit
  | 0 => pure ()
  | steps + 1 => do
    trainLoop model batchSize x target steps
    trainStep model batchSize x target

/-- `parameter_std`: `jTmjp(x, None, None, wrt="weight", from_diag=True, to_diag=True, diag_backprop=True)`, summed over the
batch, plus ones; then `1.0 / ...` and `... ** 0.5`.  UNet.ipynb:200-209. -/
def parameterStd (model : Mod α) (x : Tensor α) : Prog α (Tensor α) := do
  let ggn ← model.jTmjp x none none .weight true true true
  match ggn with
  | .tensor ggn => do
    let precision ← (ggn.sum0 : Res _)
    let precision ← (precision.addInPlace (ones [model.nParams]) : Res _)
    let covariance := precision.map fun a => 1 / a
    pure (covariance.map Trans.sqrt)
  | _ => Prog.throw .attribute

/-- One iteration of the loop over the samples: `parameter_sampled = parameter_std * torch.randn(UNet._n_params)`,
`UNet.set_weight(parameter_sampled)`, `val = UNet(x)`; `eps` is the value drawn by `torch.randn`.  UNet.ipynb:228-234. -/
def samplePrediction (model : Mod α) (parameterStd eps x : Tensor α) : Prog α (Tensor α) := do
  let sampled ← (parameterStd.mul eps : Res _)
  model.setWeight sampled
  model.call x

/-- The gradient of the README: `val = model(x)`, `residual = val - target`,
`gradient = model.vjp(x, val, residual, wrt="weight")`, `torch.mean(gradient, dim=0)`.  README.md:37-41, 54. -/
def readmeGradient (model : Mod α) (x target : Tensor α) : Prog α (Tensor α) := do
  let val ← model.call x
  let residual ← (val.sub target : Res _)
  let g ← model.vjp x (some val) residual .weight
  match g with
  | none => Prog.throw .type
  | some g => (mean0 g : Res _)

end Notebook
end NNJ
