import Verif.Model.Utils
import Verif.Spec.Api

/-!
# Vocabulary for `convert_to_nnj`
-/

namespace NNJ
namespace Utils

/-- The layer has a class that nnj also has, other than a likelihood, and a bias if its class is Linear or Conv2d. -/
def TorchLayer.Supported : TorchLayer ℝ → Prop
  | .linear _ _ _ b => b.isSome
  | .conv2d _ _ b => b.isSome
  | .otherPool => False
  | .likelihood => False
  | .other => False
  | _ => True

/-- The layer with every hyper-parameter that `convert_to_nnj` does not copy set to its default: stride,
padding, dilation and groups of a convolution, stride, padding, dilation and ceil mode of a pooling,
beta and threshold of Softplus, eps of L2Norm, the dimensions of Reshape, size, scale factor and mode of
Upsample, and the layers inside a nested Sequential or SkipConnection; and with `torch.nn.Flatten` replaced
by `nnj.Flatten()`. -/
noncomputable def TorchLayer.dropped : TorchLayer ℝ → TorchLayer ℝ
  | .conv2d cfg w b => .conv2d { inChannels := cfg.inChannels, outChannels := cfg.outChannels, kernel := cfg.kernel } w b
  | .maxPool2d a => .maxPool2d { kernel := a.kernel, stride := a.kernel }
  | .softplus _ _ => .softplus 1 20
  | .l2norm _ => .l2norm (1 / 1000000)
  | .reshape _ => .reshape []
  | .sequential _ => .sequential []
  | .skip _ => .skip []
  | .nnFlatten => .flatten
  | .nnFlattenAt _ _ => .flatten
  | .upsample _ => .upsample {}
  | l => l

/-- The object numbers from `i` on are not in use: no hook is registered on them. -/
def Fresh (i : Nat) (st : Store ℝ) : Prop := ∀ j, 2 * i ≤ j → st.hooks j = []

/-- the state after forward passes on the given inputs, one after the other -/
def afterForwards (m : Mod ℝ) (xs : List (Tensor ℝ)) (st : Store ℝ) : Store ℝ := xs.foldl (fun s x => (m.forward x s).2) st

/-- The sample map of the given network: input and output flattened.  (0 if it raises.) -/
noncomputable def torchMap {n k : Nat} (ls : List (TorchLayer ℝ)) (s : List Nat) (x : Fin n → ℝ) : Fin k → ℝ :=
  fun i => match torchForward ls (ofSample s x) with
    | .ok t => t.data i
    | .error _ => 0

/-- A layer with default hyper-parameters, on samples of shape `s`, and the nnj layer number `i` it is
converted to. -/
inductive Typed (i : Nat) : {s s' : List Nat} → {n k p : Nat} → TorchLayer ℝ → Net s n s' k p → Prop
  | linear (inF outF : Nat) (hi : 0 < inF) (ho : 0 < outF) (w b : Tensor ℝ) (hw : w.shape = [outF, inF]) (hb : b.shape = [outF]) :
      Typed i (.linear inF outF w (some b)) (.linear (2 * i) (2 * i) (some (2 * i + 1)) inF outF hi ho)
  | conv2d (g : ConvDims) (hv : g.vmap = true) (h0 : g.ph = 0) (h0' : g.pw = 0) (w b : Tensor ℝ)
      (hw : w.shape = [g.c2, g.c1, g.kh, g.kw]) (hb : b.shape = [g.c2]) :
      Typed i (.conv2d { inChannels := g.c1, outChannels := g.c2, kernel := (g.kh, g.kw) } w (some b)) (.conv (2 * i) (2 * i) (some (2 * i + 1)) g)
  | maxPool2d (g : PoolDims) (ha : g.a = { kernel := g.a.kernel, stride := g.a.kernel }) : Typed i (.maxPool2d g.a) (.maxpool (2 * i) g)
  | relu (s : List Nat) (n : Nat) (hs : size s = n) (hn : 0 < n) : Typed i .relu (.act .relu (2 * i) s n hs hn)
  | sigmoid (s : List Nat) (n : Nat) (hs : size s = n) (hn : 0 < n) : Typed i .sigmoid (.act .sigmoid (2 * i) s n hs hn)
  | tanh (s : List Nat) (n : Nat) (hs : size s = n) (hn : 0 < n) : Typed i .tanh (.act .tanh (2 * i) s n hs hn)
  | sinusoidal (s : List Nat) (n : Nat) (hs : size s = n) (hn : 0 < n) : Typed i .sinusoidal (.act .sinusoidal (2 * i) s n hs hn)
  | truncExp (s : List Nat) (n : Nat) (hs : size s = n) (hn : 0 < n) : Typed i .truncExp (.act .truncExp (2 * i) s n hs hn)
  | softplus (s : List Nat) (n : Nat) (hs : size s = n) (hn : 0 < n) : Typed i (.softplus 1 20) (.act (.softplus 1 20) (2 * i) s n hs hn)
  | flatten (s : List Nat) (n : Nat) (hs : size s = n) (hn : 0 < n) : Typed i .flatten (.flatten (2 * i) s n hs hn)
  | nnFlatten (s : List Nat) (n : Nat) (hs : size s = n) (hn : 0 < n) (hne : s ≠ []) : Typed i .nnFlatten (.flatten (2 * i) s n hs hn)
  | l2norm (s : List Nat) (n : Nat) (hs : size s = n) (hr : s.length ≤ 8) (hn : 0 < n) :
      Typed i (.l2norm (1 / 1000000)) (.l2norm (2 * i) (1 / 1000000) s n hs hr hn)

/-- the same for a list of layers, numbered from `i` on -/
inductive TypedC (i : Nat) : {s s' : List Nat} → {n k p l : Nat} → List (TorchLayer ℝ) → Chain s n s' k p l → Prop
  | nil (s : List Nat) (n : Nat) (hs : size s = n) (hn : 0 < n) : TypedC i [] (.nil s n hs hn)
  | snoc {s s' s'' : List Nat} {n k j p q l : Nat} {ls : List (TorchLayer ℝ)} {a : TorchLayer ℝ} {c : Chain s n s' k p l} {m : Net s' k s'' j q} :
      TypedC i ls c → Typed (i + l) a m → TypedC i (ls ++ [a]) (.snoc c m)

end Utils
end NNJ
