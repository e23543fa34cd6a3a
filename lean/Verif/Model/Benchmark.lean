import Verif.Model.Utils
import Verif.Model.LogLikelihoods

/-!
# benchmarks/ggn/nnj.py

The class `GGN`, which uses nnj as a library.  Not modelled: moving the model to a device (line 39), the timer
(benchmarks/timer.py), the script below `__main__` and the classes in benchmarks/ggn/backpack.py, which call BackPACK.
-/

namespace NNJ
namespace Benchmark
open Utils LogLik Tensor

variable {α : Type} [Zero α] [One α] [Add α] [Sub α] [Neg α] [Mul α] [Div α] [NatCast α] [LT α] [DecidableLT α] [Trans α]

/-- `GGN.__init__`: converts the given `torch.nn.Sequential` and keeps the result as `self.model`.
benchmarks/ggn/nnj.py:9-11.  (`i` numbers the objects that the conversion creates, as in `convertToNnj`.) -/
def GGN.init (i : Nat) (ls : List (TorchLayer α)) : Prog α (Mod α) := convertToNnj i ls

/-- `GGN.ggn`: `jTmjp(X, None, None, wrt="weight", to_diag=True, from_diag=False, diag_backprop=False)`, then
`torch.mean(dim=0)`, which raises TypeError on anything but a tensor; `y` is not used.  benchmarks/ggn/nnj.py:13-29. -/
def GGN.ggn (model : Mod α) (X _y : Tensor α) : Prog α (Tensor α) := do
  let jtj ← model.jTmjp X none none .weight false true false
  let t ← (jtj.toTensor : Res _)
  (mean0 t : Res _)

end Benchmark
end NNJ
