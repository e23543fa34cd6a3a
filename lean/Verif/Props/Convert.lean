import Verif.Proofs.ConvertNet
import Verif.Proofs.DerivL2
import Verif.Spec.Example

/-!
# C27: `convert_to_nnj`
-/

namespace NNJ
namespace Props
open Utils

/-- C27: `convert_to_nnj` returns a network exactly when nnj has the class of every layer, every Linear
and Conv2d has a bias and there is no likelihood; otherwise it raises AssertionError if the first offending layer is a
likelihood, and AttributeError if not. -/
theorem C27_converts (ls : List (TorchLayer ℝ)) (i : Nat) (st : Store ℝ) :
    ((∀ l ∈ ls, l.Supported) → ∃ m, Returns (convertToNnj i ls) st m) ∧
    ((∃ l ∈ ls, ¬ l.Supported) → ∃ pre l post, ls = pre ++ l :: post ∧ (∀ a ∈ pre, a.Supported) ∧ ¬ l.Supported ∧
      (l = .likelihood → (convertToNnj i ls st).1 = .error .assertion) ∧ (l ≠ .likelihood → (convertToNnj i ls st).1 = .error .attribute)) := by
  constructor
  · intro h
    obtain ⟨ms, st1, h1, _⟩ := convertLayers_run ls h i st
    exact ⟨Sequential.mod (2 * (i + ls.length)) true ms, by rw [Returns, convertToNnj, Prog.bind_ok h1]; rfl⟩
  · intro h
    obtain ⟨pre, l, post, rfl, hp, hl⟩ := first_unsupported ls h
    obtain ⟨st1, h1⟩ := convert_error pre hp l hl post i st
    refine ⟨pre, l, post, rfl, hp, hl, ?_⟩
    rw [h1]
    constructor
    · rintro rfl; rfl
    · intro h; cases l <;> first | rfl | exact absurd rfl h

/-- a Linear layer without bias raises -/
example (st : Store ℝ) : (convertToNnj 0 [.tanh, .linear 1 1 ⟨[1, 1], fun _ => 2⟩ none] st).1 = .error .attribute := by
  obtain ⟨pre, l, post, e, hp, hl, -, h⟩ := (C27_converts [.tanh, .linear 1 1 ⟨[1, 1], fun _ => 2⟩ none] 0 st).2
    ⟨_, List.mem_cons_of_mem _ (List.mem_singleton.2 rfl), by simp [TorchLayer.Supported]⟩
  have hm : l ∈ [TorchLayer.tanh, .linear 1 1 (⟨[1, 1], fun _ => 2⟩ : Tensor ℝ) none] := by rw [e]; simp
  exact h (by rintro rfl; simp at hm)

/-- C27: the converted network computes the function of the given one with every hyper-parameter that is
not copied set to its default (`dropped`), on every input (including those where it raises), also after any
sequence of other forward passes.  Parameters, feature maps and hooks of other objects stay as they were. -/
theorem C27_forward (ls : List (TorchLayer ℝ)) (hl : ∀ l ∈ ls, l.Supported) (i : Nat) (st : Store ℝ) (hst : Fresh i st) :
    ∃ m st', convertToNnj i ls st = (.ok m, st') ∧
      (∀ j, j < 2 * i → st'.param j = st.param j ∧ st'.fmaps j = st.fmaps j ∧ st'.hooks j = st.hooks j) ∧
      ∀ xs x, (m.forward x (afterForwards m xs st')).1 = torchForward (ls.map TorchLayer.dropped) x := by
  obtain ⟨m, st', h, hfr, hf⟩ := convert_run ls hl i st hst
  refine ⟨m, st', h, hfr, fun xs x => ?_⟩
  have ha : ∀ xs s, After st' s → After st' (afterForwards m xs s) := by
    intro xs
    induction xs with
    | nil => exact fun s hs => hs
    | cons y ys ih =>
      intro s hs
      obtain ⟨s', hy, hs'⟩ := hf s hs y
      refine ih _ ?_
      show After st' (m.forward y s).2
      rw [hy]
      exact hs.trans hs'
  obtain ⟨s', hx, _⟩ := hf _ (ha xs st' .refl) x
  rw [hx]

/-- C27: an Upsample layer with whatever arguments is accepted, but none of them is copied: the forward pass of the converted network raises on every
input. -/
theorem C27_upsample (ls : List (TorchLayer ℝ)) (hl : ∀ l ∈ ls, l.Supported) {o : Upsample.Options} (ho : .upsample o ∈ ls) (i : Nat) (st : Store ℝ)
    (hst : Fresh i st) :
    ∃ m st', convertToNnj i ls st = (.ok m, st') ∧ ∀ xs x, ∃ e, (m.forward x (afterForwards m xs st')).1 = .error e := by
  obtain ⟨m, st', h, -, hf⟩ := C27_forward ls hl i st hst
  refine ⟨m, st', h, fun xs x => ?_⟩
  rw [hf xs x]
  exact torchForward_error (List.mem_map.2 ⟨_, ho, by rw [TorchLayer.dropped]⟩) upsample_default x

/-- `Sequential(Tanh(), Upsample(scale_factor=2))`, although the given network enlarges its input -/
example (st : Store ℝ) (hst : Fresh 0 st) :
    (∃ v, torchForward [.tanh, .upsample { scale := .scalar ⟨2, 1⟩ }] (⟨[1, 1, 1, 1], fun _ => 3⟩ : Tensor ℝ) = .ok v ∧ v.shape = [1, 1, 2, 2]) ∧
    ∃ m st', convertToNnj 0 [.tanh, .upsample { scale := .scalar ⟨2, 1⟩ }] st = (.ok m, st') ∧ ∀ x, ∃ e, (m.forward x st').1 = .error e := by
  constructor
  · obtain ⟨v, hv, hs⟩ : ∃ v, (Upsample.Options.forward { scale := .scalar ⟨2, 1⟩ } (⟨[1, 1, 1, 1], fun _ => Real.tanh 3⟩ : Tensor ℝ)) = .ok v ∧
        v.shape = [1, 1, 2, 2] := ⟨_, rfl, rfl⟩
    refine ⟨v, ?_, hs⟩
    rw [torchForward_cons_ok (v := ⟨[1, 1, 1, 1], fun _ => Real.tanh 3⟩) (by rw [TorchLayer.forward]; rfl),
      torchForward_cons_ok (v := v) (by rw [TorchLayer.forward]; exact hv), torchForward]
  · obtain ⟨m, st', h, hf⟩ := C27_upsample [.tanh, .upsample { scale := .scalar ⟨2, 1⟩ }] (by simp [TorchLayer.Supported])
      (o := { scale := .scalar ⟨2, 1⟩ }) (by simp) 0 st hst
    exact ⟨m, st', h, fun x => hf [] x⟩

/-- C27: the arguments of `torch.nn.Flatten` are not copied either: converted, every `Flatten(start_dim, end_dim)` computes the same function as
`Flatten()` converted; with the default arguments `start_dim = 1` and `end_dim = -1` the given layer does that too, up to empty batches. -/
theorem C27_flattenAt (a b : Int) (i : Nat) (st : Store ℝ) (hst : Fresh i st) :
    (∃ m st', convertToNnj i [.nnFlattenAt a b] st = (.ok m, st') ∧ ∀ xs x, (m.forward x (afterForwards m xs st')).1 = Resh.flattenForward x) ∧
    ∀ x : Tensor ℝ, (TorchLayer.nnFlattenAt 1 (-1)).forward x = TorchLayer.nnFlatten.forward x := by
  constructor
  · obtain ⟨m, st', h, -, hf⟩ := C27_forward [.nnFlattenAt a b] (by simp [TorchLayer.Supported]) i st hst
    refine ⟨m, st', h, fun xs x => ?_⟩
    rw [hf xs x, List.map_singleton, TorchLayer.dropped, torchForward, TorchLayer.forward]
    rcases Resh.flattenForward x with e | v
    · rfl
    · show torchForward [] v = _
      rw [torchForward]
  · intro x
    rw [TorchLayer.forward, TorchLayer.forward, nnFlattenAt_default]

/-- C27: what is lost.  `Flatten(start_dim, end_dim)` merges the dimensions from `start_dim` to `end_dim`, each given from the front or, negative, from
the end; unless all but one dimension are merged, converted it returns a tensor with another number of dimensions, or raises. -/
theorem C27_flattenAt_merges (s m s' : List Nat) (hm : m ≠ []) (d : Nat → ℝ) (a b : Int)
    (ha : a = s.length ∨ a = s.length - (s ++ m ++ s').length)
    (hb : b = s.length + m.length - 1 ∨ b = s.length + m.length - 1 - (s ++ m ++ s').length) :
    (TorchLayer.nnFlattenAt a b).forward (⟨s ++ m ++ s', d⟩ : Tensor ℝ) = .ok ⟨s ++ size m :: s', d⟩ ∧
    (s.length + s'.length ≠ 1 → ∀ y, Resh.flattenForward (⟨s ++ m ++ s', d⟩ : Tensor ℝ) = .ok y →
      y.shape.length ≠ (s ++ size m :: s').length) := by
  have hl : 0 < m.length := List.length_pos_iff.2 hm
  constructor
  · rw [TorchLayer.forward]
    exact nnFlattenAt_merges s m s' hm d ha hb
  · intro h y hy
    have : y.shape.length = 2 := by
      exact flattenForward_rank hy
    simp only [this, List.length_append, List.length_cons]
    omega

/-- C27: a dimension that does not exist is an IndexError of the given layer; converted, the layer ignores it (`C27_flattenAt`). -/
theorem C27_flattenAt_range (a b : Int) (x : Tensor ℝ) (hx : x.shape ≠ [])
    (h : a < -x.shape.length ∨ x.shape.length ≤ a ∨ b < -x.shape.length ∨ x.shape.length ≤ b) :
    (TorchLayer.nnFlattenAt a b).forward x = .error .index := by
  rw [TorchLayer.forward]
  exact nnFlattenAt_range hx h

/-- `Flatten(-3, 1)` merges the first two of three dimensions, `Flatten(3, 1)` raises -/
example : (TorchLayer.nnFlattenAt (-3) 1).forward (⟨[2, 4, 3], fun j => j⟩ : Tensor ℝ) = .ok ⟨[8, 3], fun j => j⟩ ∧
    (TorchLayer.nnFlattenAt 3 1).forward (⟨[2, 4, 3], fun j => j⟩ : Tensor ℝ) = .error .index :=
  ⟨(C27_flattenAt_merges [] [2, 4] [3] (by simp) _ _ _ (.inr rfl) (.inl rfl)).1, C27_flattenAt_range _ _ _ (by simp) (by simp)⟩

/-- `Flatten(start_dim=0)` and `Flatten(start_dim=2)` return other shapes than `nnj.Flatten()` -/
example : (TorchLayer.nnFlattenAt 0 (-1)).forward (⟨[2, 1, 3], fun j => j⟩ : Tensor ℝ) = .ok ⟨[6], fun j => j⟩ ∧
    (TorchLayer.nnFlattenAt 2 (-1)).forward (⟨[2, 1, 3], fun j => j⟩ : Tensor ℝ) = .ok ⟨[2, 1, 3], fun j => j⟩ ∧
    Resh.flattenForward (⟨[2, 1, 3], fun j => j⟩ : Tensor ℝ) = .ok ⟨[2, 3], fun j => j⟩ := by
  refine ⟨?_, ?_, rfl⟩ <;> rw [TorchLayer.forward] <;> rfl

/-- C27: if every hyper-parameter that is not copied has its default value, the converted network computes
the same function as the given one. -/
theorem C27_same (ls : List (TorchLayer ℝ)) (hl : ∀ l ∈ ls, l.Supported ∧ l.dropped = l) (i : Nat) (st : Store ℝ) (hst : Fresh i st) :
    ∃ m st', convertToNnj i ls st = (.ok m, st') ∧ ∀ xs x, (m.forward x (afterForwards m xs st')).1 = torchForward ls x := by
  obtain ⟨m, st', h, _, hf⟩ := C27_forward ls (fun l h => (hl l h).1) i st hst
  refine ⟨m, st', h, fun xs x => ?_⟩
  rw [hf xs x, List.map_congr_left (fun l h => (hl l h).2), List.map_id']

/-- `Sequential(Linear(2, 1), Softplus())` with a default Softplus -/
noncomputable def exSoft : List (TorchLayer ℝ) := [.linear 2 1 ⟨[1, 2], fun j => j⟩ (some ⟨[1], fun _ => 5⟩), .softplus 1 20]

example (st : Store ℝ) (hst : Fresh 3 st) :
    ∃ m st', convertToNnj 3 exSoft st = (.ok m, st') ∧ ∀ xs x, (m.forward x (afterForwards m xs st')).1 = torchForward exSoft x :=
  C27_same exSoft (by simp [exSoft, TorchLayer.Supported, TorchLayer.dropped]) 3 st hst

/-- C27: `torch.nn.Flatten()` becomes `nnj.Flatten()`, which computes the same as long as no empty tensor
occurs: if the given network returns a value on `x`, and neither `x` nor the value of any of its layers is
empty, then the converted network returns the same value. -/
theorem C27_flatten (ls : List (TorchLayer ℝ)) (hl : ∀ l ∈ ls, l.Supported ∧ (l.dropped = l ∨ l = .nnFlatten)) (i : Nat) (st : Store ℝ)
    (hst : Fresh i st) :
    ∃ m st', convertToNnj i ls st = (.ok m, st') ∧ ∀ xs x v, torchForward ls x = .ok v →
      (∀ ls', ls' <+: ls → ∀ u, torchForward ls' x = .ok u → size u.shape ≠ 0) → (m.forward x (afterForwards m xs st')).1 = .ok v := by
  obtain ⟨m, st', h, _, hf⟩ := C27_forward ls (fun l h => (hl l h).1) i st hst
  refine ⟨m, st', h, fun xs x v hv h0 => ?_⟩
  rw [hf xs x]
  exact dropped_forward ls (fun l h => (hl l h).2) x h0 v hv

/-- `Sequential(Flatten(), Tanh())` of torch, on an input of shape `[1, 2, 3]` -/
example (st : Store ℝ) (hst : Fresh 0 st) :
    ∃ m st', convertToNnj 0 [.nnFlatten, .tanh] st = (.ok m, st') ∧
      (m.forward ⟨[1, 2, 3], fun j => j⟩ st').1 = .ok ⟨[1, 6], fun j => Real.tanh j⟩ := by
  obtain ⟨m, st', h, hf⟩ := C27_flatten [.nnFlatten, .tanh] (by simp [TorchLayer.Supported, TorchLayer.dropped]) 0 st hst
  have e0 : torchForward ([] : List (TorchLayer ℝ)) ⟨[1, 2, 3], fun j => j⟩ = .ok ⟨[1, 2, 3], fun j => j⟩ := by rw [torchForward]
  have e1 : torchForward ([.nnFlatten] : List (TorchLayer ℝ)) ⟨[1, 2, 3], fun j => j⟩ = .ok ⟨[1, 6], fun j => j⟩ := by
    rw [torchForward_cons_ok (v := ⟨[1, 6], fun j => j⟩) (by rw [TorchLayer.forward]; rfl), torchForward]
  have e2 : torchForward ([.nnFlatten, .tanh] : List (TorchLayer ℝ)) ⟨[1, 2, 3], fun j => j⟩ = .ok ⟨[1, 6], fun j => Real.tanh j⟩ := by
    rw [torchForward_cons_ok (v := ⟨[1, 6], fun j => j⟩) (by rw [TorchLayer.forward]; rfl),
      torchForward_cons_ok (v := ⟨[1, 6], fun j => Real.tanh j⟩) (by rw [TorchLayer.forward]; rfl), torchForward]
  refine ⟨m, st', h, hf [] _ _ e2 fun ls' hp u hu => ?_⟩
  have : ls' = [] ∨ ls' = [.nnFlatten] ∨ ls' = [.nnFlatten, .tanh] := by
    rcases ls' with _ | ⟨a, _ | ⟨b, _ | ⟨c, d⟩⟩⟩
    · simp
    · simp at hp; simp [hp]
    · simp at hp; simp [hp]
    · have := hp.length_le
      simp at this
  rcases this with rfl | rfl | rfl
  · rw [e0] at hu; cases hu; decide
  · rw [e1] at hu; cases hu; decide
  · rw [e2] at hu; cases hu; decide

/-- C27: on an empty batch the two differ: `torch.nn.Flatten()` returns a tensor of shape `[0, 6]`, the
converted network raises. -/
theorem C27_flatten_empty (i : Nat) (st : Store ℝ) (hst : Fresh i st) (d : Nat → ℝ) :
    ∃ m st', convertToNnj i [.nnFlatten] st = (.ok m, st') ∧ torchForward [.nnFlatten] ⟨[0, 2, 3], d⟩ = .ok ⟨[0, 6], d⟩ ∧
      ∀ xs, (m.forward ⟨[0, 2, 3], d⟩ (afterForwards m xs st')).1 = .error .shape := by
  obtain ⟨m, st', h, _, hf⟩ := C27_forward [.nnFlatten] (by simp [TorchLayer.Supported]) i st hst
  refine ⟨m, st', h, ?_, fun xs => ?_⟩
  · rw [torchForward_cons_ok (v := ⟨[0, 6], d⟩) (by rw [TorchLayer.forward]; rfl), torchForward]
  · rw [hf xs, List.map_singleton, TorchLayer.dropped, torchForward, TorchLayer.forward]
    rfl

/-- C27: a nested Sequential is replaced by an empty one: whatever its layers, the converted network
returns its input. -/
theorem C27_nested (ls : List (TorchLayer ℝ)) (i : Nat) (st : Store ℝ) (hst : Fresh i st) :
    ∃ m st', convertToNnj i [.sequential ls] st = (.ok m, st') ∧ ∀ xs x, (m.forward x (afterForwards m xs st')).1 = .ok x := by
  obtain ⟨m, st', h, _, hf⟩ := C27_forward [.sequential ls] (by simp [TorchLayer.Supported]) i st hst
  refine ⟨m, st', h, fun xs x => ?_⟩
  rw [hf xs x]
  simp only [List.map, TorchLayer.dropped, torchForward, TorchLayer.forward]
  rfl

/-- so `Sequential(Sequential(ReLU()))` is converted to a different function -/
example (st : Store ℝ) (hst : Fresh 0 st) :
    ∃ m st', convertToNnj 0 [.sequential [.relu]] st = (.ok m, st') ∧ ∃ x, (m.forward x st').1 ≠ torchForward [.sequential [.relu]] x := by
  obtain ⟨m, st', h, hf⟩ := C27_nested [.relu] 0 st hst
  refine ⟨m, st', h, ⟨[1, 1], fun _ => -1⟩, ?_⟩
  rw [show (m.forward ⟨[1, 1], fun _ => -1⟩ st').1 = _ from hf [] _]
  simp only [torchForward, TorchLayer.forward]
  intro he
  have h1 : (⟨[1, 1], fun _ => -1⟩ : Tensor ℝ) = Tensor.map Activation.reluF ⟨[1, 1], fun _ => -1⟩ := by
    injection he
  have h2 := congrArg (fun t : Tensor ℝ => t.data 0) h1
  simp [Tensor.map, Activation.reluF] at h2

/-- C27: the conversion of a Softplus with `beta = 2` returns a different value at 0. -/
theorem C27_softplus (i : Nat) (st : Store ℝ) (hst : Fresh i st) :
    ∃ m st', convertToNnj i [.softplus 2 20] st = (.ok m, st') ∧ ∃ x, (m.forward x st').1 ≠ torchForward [.softplus 2 20] x := by
  obtain ⟨m, st', h, _, hf⟩ := C27_forward [.softplus 2 20] (by simp [TorchLayer.Supported]) i st hst
  refine ⟨m, st', h, ⟨[1, 1], fun _ => 0⟩, ?_⟩
  rw [show (m.forward ⟨[1, 1], fun _ => 0⟩ st').1 = _ from hf [] _]
  simp only [List.map, TorchLayer.dropped, torchForward, TorchLayer.forward]
  intro he
  have h1 : Tensor.map (Activation.softplusF 1 20) ⟨[1, 1], fun _ => (0 : ℝ)⟩ = Tensor.map (Activation.softplusF 2 20) ⟨[1, 1], fun _ => (0 : ℝ)⟩ := by
    injection he
  have h2 := congrArg (fun t : Tensor ℝ => t.data 0) h1
  have hl := Real.log_pos (by norm_num : (1 : ℝ) < 1 + 1)
  simp [Tensor.map, Activation.softplusF, Trans.log, Trans.exp] at h2
  norm_num at hl h2
  linarith

/-- C27: the conversion of a Conv2d with padding 1 returns an image of another size. -/
theorem C27_conv_padding (w b : Tensor ℝ) (hw : w.shape = [1, 1, 3, 3]) (hb : b.shape = [1]) (i : Nat) (st : Store ℝ) (hst : Fresh i st)
    (x : Tensor ℝ) (hx : x.shape = [1, 1, 3, 3]) :
    let ls := [TorchLayer.conv2d { inChannels := 1, outChannels := 1, kernel := (3, 3), padding := (1, 1) } w (some b)]
    ∃ m st' v v', convertToNnj i ls st = (.ok m, st') ∧ (m.forward x st').1 = .ok v ∧ v.shape = [1, 1, 1, 1] ∧
      torchForward ls x = .ok v' ∧ v'.shape = [1, 1, 3, 3] := by
  obtain ⟨m, st', h, _, hf⟩ := C27_forward [.conv2d { inChannels := 1, outChannels := 1, kernel := (3, 3), padding := (1, 1) } w (some b)]
    (by simp [TorchLayer.Supported]) i st hst
  have h1 := hf [] x
  simp only [List.map, TorchLayer.dropped, torchForward, TorchLayer.forward, Torch.conv2d, hx, hw, hb, Conv2d.Cfg.fwdArgs, Torch.convLen] at h1
  simp only [torchForward, TorchLayer.forward, Torch.conv2d, hx, hw, hb, Conv2d.Cfg.fwdArgs, Torch.convLen]
  exact ⟨m, st', _, _, h, h1, rfl, rfl, rfl⟩

/-- C27: converting a list of well-shaped layers with default hyper-parameters gives a network in the
sense of the other properties: they all apply to it. -/
theorem C27_net {s s' : List Nat} {n k p l : Nat} {ls : List (TorchLayer ℝ)} {c : Chain s n s' k p (l + 1)} {i : Nat} (h : TypedC i ls c)
    (st : Store ℝ) (hst : Fresh i st) :
    ∃ st', convertToNnj i ls st = (.ok (Net.seq (2 * (i + l + 1)) c).mod, st') ∧ (Net.seq (2 * (i + l + 1)) c).Ok st' ∧
      forwardMap (Net.seq (2 * (i + l + 1)) c).mod st' s = torchMap (n := n) (k := k) ls s := by
  obtain ⟨st', h1, h2⟩ := h.convert st hst
  refine ⟨st', h1, h2, ?_⟩
  obtain ⟨m, st'', h1', _, hf⟩ := C27_forward ls h.supported i st hst
  rw [h1] at h1'
  obtain ⟨rfl, rfl⟩ : (Net.seq (2 * (i + l + 1)) c).mod = m ∧ st' = st'' := by
    simpa using h1'
  funext z j
  obtain ⟨v, _, e1, e2, _⟩ := h.forward Nat.one_pos (ofSample_isBatch z)
  rw [forwardMap, torchMap, show ((Net.seq (2 * (i + l + 1)) c).mod.forward (ofSample s z) st').1 = _ from hf [] _, e1, e2]

/-- C27: in particular `jacobian` of the converted network is the derivative of the given network. -/
theorem C27_jacobian {s s' : List Nat} {n k p l : Nat} {ls : List (TorchLayer ℝ)} {c : Chain s n s' k p (l + 1)} {i : Nat} (h : TypedC i ls c)
    (st : Store ℝ) (hst : Fresh i st) {B : Nat} {X : Fin B → Fin n → ℝ} {x : Tensor ℝ} (hB : 0 < B) (hx : IsBatch x B s n X) :
    ∃ m st' jt J, convertToNnj i ls st = (.ok m, st') ∧ Returns (m.jacobian x none .input) st' (some jt) ∧ IsMat jt B k n J ∧
      ∀ b, (Net.seq (2 * (i + l + 1)) c).sem.smooth ((Net.seq (2 * (i + l + 1)) c).w st') (X b) →
        HasFDerivAt (torchMap ls s) (linMap (J b)) (X b) := by
  obtain ⟨st', h1, h2, h3⟩ := C27_net h st hst
  obtain ⟨jt, hj, hJ⟩ := h2.jacI hB hx
  refine ⟨_, st', jt, _, h1, hj, hJ, fun b hs => ?_⟩
  rw [← h3, h2.forwardMap_eq]
  exact (Net.diff _ _ _ hs).input

/-- a state without hooks is fresh -/
example (i : Nat) : Fresh i { exStore with hooks := fun _ => [] } := fun _ _ => rfl

/-- `Sequential(Linear(2, 3), Tanh(), Linear(3, 1))` -/
noncomputable def exTorch : List (TorchLayer ℝ) :=
  [.linear 2 3 ⟨[3, 2], fun j => j⟩ (some ⟨[3], fun _ => 5⟩), .tanh, .linear 3 1 ⟨[1, 3], fun j => 1 - j⟩ (some ⟨[1], fun _ => 0⟩)]

/-- what it is converted to -/
def exConverted : Chain [2] 2 [1] 1 (0 + (3 * 2 + 3) + 0 + (1 * 3 + 1)) 3 :=
  .snoc (.snoc (.snoc (.nil [2] 2 rfl (by norm_num)) (.linear 0 0 (some 1) 2 3 (by norm_num) (by norm_num)))
    (.act .tanh 2 [3] 3 rfl (by norm_num))) (.linear 4 4 (some 5) 3 1 (by norm_num) (by norm_num))

theorem exTyped : TypedC 0 exTorch exConverted :=
  .snoc (ls := [_, _]) (.snoc (ls := [_]) (.snoc (ls := []) (.nil [2] 2 rfl (by norm_num))
    (.linear 2 3 (by norm_num) (by norm_num) _ _ rfl rfl)) (.tanh [3] 3 rfl (by norm_num)))
    (.linear 3 1 (by norm_num) (by norm_num) _ _ rfl rfl)

example (st : Store ℝ) (hst : Fresh 0 st) :
    ∃ m st' jt J, convertToNnj 0 exTorch st = (.ok m, st') ∧ Returns (m.jacobian ⟨[2, 2], fun i => i⟩ none .input) st' (some jt) ∧
      IsMat jt 2 1 2 J ∧ ∀ b : Fin 2, HasFDerivAt (torchMap (k := 1) exTorch [2]) (linMap (J b)) (fun i : Fin 2 => (2 * b + i : ℝ)) := by
  obtain ⟨m, st', jt, J, h1, h2, h3, h4⟩ := C27_jacobian exTyped st hst (B := 2) (X := fun b i => (2 * b + i : ℝ)) (x := ⟨[2, 2], fun i => i⟩)
    (by norm_num) ⟨rfl, fun b i => by simp; ring⟩
  refine ⟨m, st', jt, J, h1, h2, h3, fun b => h4 b ?_⟩
  simp [exConverted, Net.sem, Chain.sem, Sem.comp, Sem.id, linearSem, Act.sem, Sem.leaf0, Sem.leaf, Act.smoothAt]

end Props
end NNJ
