import Verif.Proofs.Reshape
import Verif.Props.History

/-!
# C57: which sizes `Reshape` accepts

`nnj.Reshape(*z)` stores its arguments unchecked; `forward` passes them to `torch.Tensor.reshape` after the batch size.
-/

namespace NNJ.Props
open NNJ Matrix Tensor

variable {id b : Nat} {s : List Nat} {z : List Int} {x y : Tensor ℝ} {st : Store ℝ}

theorem reshape_forward_eq (hx : x.shape = b :: s) : ((Resh.reshape z id : Mod ℝ).forward x st).1 = x.reshapeOpen (b :: z) := by
  have e : x.dim 0 = .ok b := by simp [Tensor.dim, hx]
  show Resh.reshapeForward z x = _
  rw [Resh.reshapeForward, e]
  rfl

/-- On a nonempty batch of shape `b, *s`, `forward` returns exactly when `z` is a shape with as many entries as `s`, up to one size
left open as -1; the result has that shape and the same entries in the same order. -/
theorem C57_forward (hx : x.shape = b :: s) (h0 : 0 < x.numel) :
    Returns ((Resh.reshape z id : Mod ℝ).forward x) st y ↔
      ∃ dims, OpenShape z dims ∧ size dims = size s ∧ y = ⟨b :: dims, x.data⟩ := by
  rw [← reshapeOpen_iff hx h0, Returns, reshape_forward_eq hx]

/-- In all other cases it raises the RuntimeError of torch. -/
theorem C57_raises (hx : x.shape = b :: s) (h0 : 0 < x.numel) (hz : ∀ dims, OpenShape z dims → size dims ≠ size s) :
    ((Resh.reshape z id : Mod ℝ).forward x st).1 = .error .shape := by
  cases h : ((Resh.reshape z id : Mod ℝ).forward x st).1 with
  | ok y =>
    obtain ⟨dims, h1, h2, -⟩ := (C57_forward hx h0).1 h
    exact absurd h2 (hz dims h1)
  | error e =>
    rw [reshape_forward_eq hx] at h
    rw [reshapeOpen_error h]

/-- Two sizes left open, or a negative size other than -1, raise on every input (with any number of entries). -/
theorem C57_malformed (hx : x.shape = b :: s) (hz : 1 < z.count (-1) ∨ ∃ d ∈ z, d < -1) :
    ((Resh.reshape z id : Mod ℝ).forward x st).1 = .error .shape := by
  have hno : ¬ ∃ dims, OpenShape z dims := fun ⟨dims, h⟩ => by
    obtain h1 | ⟨d, hd, h1⟩ := hz
    · have := openShape_count h; omega
    · have := openShape_nonneg h hd; omega
  rw [reshape_forward_eq hx]
  obtain ⟨l, rfl⟩ | ⟨pre, post, rfl⟩ | ⟨-, h⟩ := openShape_cases z
  · exact absurd ⟨l, Or.inl rfl⟩ hno
  · exact absurd ⟨pre ++ 0 :: post, Or.inr ⟨pre, 0, post, rfl, rfl⟩⟩ hno
  · exact h b x

/-- A size left open cannot be inferred for an empty batch: `Reshape(*z)` raises although any sizes written out are accepted. -/
theorem C57_empty (hx : x.shape = 0 :: s) (pre post : List Nat) (a : Nat) :
    ((Resh.reshape (pre.map (↑) ++ -1 :: post.map (↑)) id : Mod ℝ).forward x st).1 = .error .shape ∧
      Returns ((Resh.reshape ((pre ++ a :: post).map (↑)) id : Mod ℝ).forward x) st ⟨0 :: (pre ++ a :: post), x.data⟩ := by
  constructor
  · rw [reshape_forward_eq hx, ← List.cons_append, ← List.map_cons (f := (Nat.cast : Nat → Int)), reshapeOpen_infer, reshapeInfer]
    simp
  · rw [Returns, reshape_forward_eq hx, ← List.map_cons (f := (Nat.cast : Nat → Int)), reshapeOpen_nat, Tensor.reshape]
    exact if_pos (by simp [Tensor.numel, hx])

/-- `Reshape(-1)` is `Flatten()`: forward and all products coincide, errors included. -/
theorem C57_flatten : (Resh.reshape [-1] id : Mod ℝ) = Resh.flatten id := by
  have : (Resh.reshapeForward [-1] : Tensor ℝ → Res (Tensor ℝ)) = Resh.flattenForward := by
    funext x
    rw [Resh.reshapeForward, Resh.flattenForward]
    refine congrArg _ (funext fun b => ?_)
    exact reshapeOpen_infer x [b] []
  rw [Resh.reshape, Resh.flatten, this]

/-- A wrong size goes unnoticed by the products: they do not depend on `z` (`jTmjp` when `val` is given). -/
theorem C57_products (z z' : List Int) (v : Tensor ℝ) :
    (Resh.reshape z id : Mod ℝ).jacobian = (Resh.reshape z' id).jacobian ∧ (Resh.reshape z id : Mod ℝ).jvp = (Resh.reshape z' id).jvp ∧
      (Resh.reshape z id : Mod ℝ).jmp = (Resh.reshape z' id).jmp ∧ (Resh.reshape z id : Mod ℝ).jmjTp = (Resh.reshape z' id).jmjTp ∧
      (Resh.reshape z id : Mod ℝ).vjp = (Resh.reshape z' id).vjp ∧ (Resh.reshape z id : Mod ℝ).mjp = (Resh.reshape z' id).mjp ∧
      (Resh.reshape z id : Mod ℝ).jTmjp x (some v) = (Resh.reshape z' id).jTmjp x (some v) :=
  ⟨rfl, rfl, rfl, rfl, rfl, rfl, rfl⟩

/-- a batch of two samples of six entries through `Reshape(3, -1)` -/
example : Returns ((Resh.reshape [3, -1] 0 : Mod ℝ).forward ⟨[2, 6], fun i => i⟩) st ⟨[2, 3, 2], fun i => i⟩ :=
  (C57_forward (b := 2) (s := [6]) rfl (by decide)).2 ⟨[3, 2], Or.inr ⟨[3], 2, [], rfl, rfl⟩, rfl, rfl⟩

/-- `Reshape(4, -1)` does not divide six entries -/
example : ((Resh.reshape [4, -1] 0 : Mod ℝ).forward ⟨[2, 6], fun i => i⟩ st).1 = .error .shape := by
  refine C57_raises (b := 2) (s := [6]) rfl (by decide) fun dims h e => ?_
  obtain h | ⟨pre, a, post, rfl, h⟩ := h
  · match dims, h with
    | [u, v], h => simp at h
  · match pre, post, h with
    | [], post, h => simp at h
    | [u], [], h =>
      simp at h
      simp [size, ← Nat.cast_inj (R := Int), ← h] at e
      omega
    | [u], _ :: _, h => simp at h
    | u :: v :: w, post, h => simp at h

example : 1 < ([-1, 3, -1] : List Int).count (-1) := by decide
example : (⟨[0, 6], fun _ => 0⟩ : Tensor ℝ).shape = 0 :: [6] := rfl

/-- A network with a size left open: all properties of networks apply to it. -/
example : ∃ N : Net [2, 3] 6 [3, 2] 6 0, N.mod = (Resh.reshape [3, -1] 0 : Mod ℝ) ∧ N.Ok st :=
  ⟨.reshape 0 [2, 3] [3, 2] 6 rfl rfl (by decide) [3, -1] (Or.inr ⟨[3], 2, [], rfl, rfl⟩), rfl, by simp [Net.ids], by simp [Net.Wired]⟩

end NNJ.Props
