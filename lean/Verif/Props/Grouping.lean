import Verif.Proofs.Grouping
import Verif.Proofs.NoneNet
import Verif.Spec.Example

/-!
# C37: grouping layers into nested Sequentials changes nothing

`N.layers = N'.layers`: the two networks have the same layer objects in the same order, but may group
them differently into Sequentials (also inside SkipConnections).  Each of them is wired in a state of
its own (`st`, `st'`), where the parameters have the same values.
-/

namespace NNJ
namespace Props
open Matrix

variable {s s' : List Nat} {n k p p' : Nat} {N : Net s n s' k p} {N' : Net s n s' k p'} {st st' : Store ℝ}
variable {B : Nat} {X : Fin B → Fin n → ℝ} {x : Tensor ℝ}

theorem Net.regroup (hl : N.layers = N'.layers) :
    ∃ h : p = p', (∀ full : Prop, ¬ full → (h ▸ N' : Net s n s' k p).Sim N full) ∧ N.sz = N'.sz ∧ N.paramIds = N'.paramIds := by
  have := Net.asem_congr hl
  unfold Net.asem at this
  injection this with h1 h2 h3 h4 h5 h6 h7 h8
  subst h3
  exact ⟨rfl, fun full hf => ⟨(eq_of_heq h4).symm, fun h => h5 ▸ h, fun h => h6 ▸ h, fun h => (hf h).elim⟩, h7, h8⟩

theorem Net.regroup_w (hl : N.layers = N'.layers) (h : N.Ok st) (h' : N'.Ok st')
    (hw : ∀ i ∈ N.paramIds, TEq (st.param i) (st'.param i)) (hp : p = p') : (fun i => N'.w st' (Fin.cast hp i)) = N.w st := by
  obtain ⟨_, _, _, hids⟩ := Net.regroup hl
  subst hp
  funext i
  rw [h.wAt]
  refine (h'.wAt i).trans ?_
  rw [← hids]
  refine ((flat_congr hw).2 i ?_).symm
  rw [hids, h'.len]
  exact i.2

/-- C37: the two networks have the same number of parameters, and `parameters()` lists the same
parameter objects in the same order. -/
theorem C37_parameters (hl : N.layers = N'.layers) : N.mod.nParams = N'.mod.nParams ∧ N.mod.parameters = N'.mod.parameters := by
  obtain ⟨h, _, _, hids⟩ := Net.regroup hl
  rw [N.nParams_eq, N'.nParams_eq, Mod.parameters, Mod.parameters, Net.mod_params, Net.mod_params, hids]
  exact ⟨h, rfl⟩

/-- C37: `get_weight` returns the same (or raises the same) on both. -/
theorem C37_getWeight (hl : N.layers = N'.layers) (hw : st.param = st'.param) : (N.mod.getWeight st).1 = (N'.mod.getWeight st').1 := by
  simp only [Mod.getWeight, (C37_parameters hl).2, hw]

/-- C37: the two networks return the same from every call: forward map, jacobians, jvp, jmp, vjp, mjp,
all metrics wrt the input, the metrics wrt the weights.  (Full weight-space metrics, whose nested lists
show the grouping, are in `C37_blocks`.) -/
theorem C37_calls (hl : N.layers = N'.layers) (h : N.Ok st) (h' : N'.Ok st')
    (hw : ∀ i ∈ N.paramIds, TEq (st.param i) (st'.param i)) (hB : 0 < B) (hx : IsBatch x B s n X)
    (c : Call) (hc : c.Valid N B) (hfull : ¬ c.FullWeight) :
    ∃ r r', Returns (c.run N.mod x none) st r ∧ Returns (c.run N'.mod x none) st' r' ∧ PEq r r' := by
  obtain ⟨hp, hsim, _, _⟩ := Net.regroup hl
  have hw' := Net.regroup_w hl h h' hw hp
  subst hp
  obtain ⟨P, hdet, hP⟩ := N.call_sim h.nodup hB c hc (N.w st) X
  obtain ⟨r, hr, _, hPr, _⟩ := (hP N ⟨rfl, fun h => h, fun h => h, fun _ => rfl⟩ st x h rfl hx).1.returns
  obtain ⟨r', hr', _, hPr', _⟩ := (hP N' (hsim _ hfull) st' x h' hw' hx).1.returns
  exact ⟨r, r', hr, hr', hdet r r' hPr hPr'⟩

/-- C37: a full weight-space metric consists of the same blocks in the same order; only the nesting of
the list follows the grouping. -/
theorem C37_blocks (hl : N.layers = N'.layers) (h : N.Ok st) (h' : N'.Ok st')
    (hw : ∀ i ∈ N.paramIds, TEq (st.param i) (st'.param i)) (hB : 0 < B) (hx : IsBatch x B s n X)
    {A : Tensor ℝ} (fd : Bool) (hA : A.shape = if fd then [B, k] else [B, k, k]) :
    ∃ r r', Returns (N.mod.jTmjp x none (some A) .weight fd false false) st r ∧
      Returns (N'.mod.jTmjp x none (some A) .weight fd false false) st' r' ∧ List.Forall₂ TEq r.leaves r'.leaves := by
  obtain ⟨hp, hsim, hsz, _⟩ := Net.regroup hl
  have hw' := Net.regroup_w hl h h' hw hp
  subst hp
  have hs := (hsim False (fun h => h)).sem
  have key := h.jTWf hB hx fd (isMetric_metricOf hA)
  have key' := h'.jTWf hB hx fd (isMetric_metricOf hA)
  have e : N'.JW st' = N.JW st := by
    funext y
    show N'.sem.JW (N'.w st') y = N.sem.JW (N.w st) y
    have hw'' : N'.w st' = N.w st := hw'
    rw [hw'', ← hs]
  rw [e] at key'
  rcases Nat.eq_zero_or_pos p with h0 | h0
  · exact ⟨_, _, key.2 h0, key'.2 h0, .nil⟩
  · obtain ⟨r, hr, hb⟩ := key.1 h0
    obtain ⟨r', hr', hb'⟩ := key'.1 h0
    refine ⟨r, r', hr, hr', Net.leaves_det hsz (Z := fun b => (N.JW st (X b))ᵀ * metricOf fd A B k b * N.JW st (X b)) ?_ ?_⟩ <;>
    · unfold OptV
      rw [if_neg (by omega)]
      assumption

/-- C37 for three networks in the groupings `(a, (b, c))`, `((a, b), c)` and `(a, b, c)`: these are the
modules in question, and their layers are the same. -/
theorem C37_three {s₀ s₁ s₂ s₃ : List Nat} {n₀ n₁ n₂ n₃ p q r : Nat} (a : Net s₀ n₀ s₁ n₁ p) (b : Net s₁ n₁ s₂ n₂ q) (c : Net s₂ n₂ s₃ n₃ r)
    (h0 : size s₀ = n₀) (h0' : 0 < n₀) (h1 : size s₁ = n₁) (h1' : 0 < n₁) (o i : Nat) :
    let right : Net s₀ n₀ s₃ n₃ _ := .seq o (.snoc (.snoc (.nil s₀ n₀ h0 h0') a) (.seq i (.snoc (.snoc (.nil s₁ n₁ h1 h1') b) c)))
    let left : Net s₀ n₀ s₃ n₃ _ := .seq o (.snoc (.snoc (.nil s₀ n₀ h0 h0') (.seq i (.snoc (.snoc (.nil s₀ n₀ h0 h0') a) b))) c)
    let flat : Net s₀ n₀ s₃ n₃ _ := .seq o (.snoc (.snoc (.snoc (.nil s₀ n₀ h0 h0') a) b) c)
    right.mod = Sequential.mod o true [a.mod, Sequential.mod i true [b.mod, c.mod]] ∧
    left.mod = Sequential.mod o true [Sequential.mod i true [a.mod, b.mod], c.mod] ∧
    flat.mod = Sequential.mod o true [a.mod, b.mod, c.mod] ∧
    right.layers = flat.layers ∧ left.layers = flat.layers := by
  simp only [Net.mod, Chain.mods, Net.layers, Chain.layers, List.nil_append, List.cons_append, List.append_assoc, and_self]

/-! ### the hypotheses can be met -/

/-- `exNet` with another grouping: `Sequential(Sequential(Linear(2, 3), Tanh()),
Sequential(SkipConnection(Sequential(Linear(3, 2, bias=False)), ReLU()), Linear(5, 1)))` -/
noncomputable def exNet' : Net [2] 2 [1] 1 (0 + (0 + (3 * 2 + 3) + 0) + (0 + (0 + (0 + (2 * 3 + 0)) + 0) + (1 * 5 + 1))) :=
  .seq 0 (.snoc (.snoc (.nil [2] 2 rfl (by norm_num))
    (.seq 9 (.snoc (.snoc (.nil [2] 2 rfl (by norm_num)) (.linear 1 0 (some 1) 2 3 (by norm_num) (by norm_num)))
      (.act .tanh 2 [3] 3 rfl (by norm_num)))))
    (.seq 10 (.snoc (.snoc (.nil [3] 3 rfl (by norm_num))
      (.skip 3 4 (a := 3) (c := 2) (r := []) (.snoc (.snoc (.nil [3] 3 rfl (by norm_num))
        (.seq 11 (.snoc (.nil [3] 3 rfl (by norm_num)) (.linear 5 2 none 3 2 (by norm_num) (by norm_num)))))
        (.act .relu 6 [2] 2 rfl (by norm_num)))))
      (.linear 8 3 (some 4) 5 1 (by norm_num) (by norm_num)))))

theorem exNet_layers : exNet.layers = exNet'.layers := by
  simp only [exNet, exNet', Net.layers, Chain.layers, List.nil_append, List.cons_append]

/-- its state -/
noncomputable def exStore' : Store ℝ where
  param := exStore.param
  fmaps i := if i = 0 ∨ i = 4 ∨ i = 9 ∨ i = 10 ∨ i = 11 then some [] else none
  pidx _ := none
  hooks i := match i with
    | 1 => [9]
    | 2 => [9]
    | 3 => [10]
    | 5 => [11]
    | 6 => [4]
    | 8 => [10]
    | 9 => [0]
    | 10 => [0]
    | 11 => [4]
    | _ => []

theorem exNet'_ok : exNet'.Ok exStore' := by
  refine ⟨by simp only [exNet', Net.ids, Chain.ids]; decide, ?_⟩
  simp [exNet', Net.Wired, Chain.Wired, exStore', exStore, Net.mod, Linear.mod, Activation.toMod, SkipConnection.mod, Sequential.mod, PureLayer.toMod]

example : ∃ r r', Returns ((Call.vjp ⟨[2, 1], fun _ => 1⟩ .weight).run exNet.mod exInput none) exStore r ∧
    Returns ((Call.vjp ⟨[2, 1], fun _ => 1⟩ .weight).run exNet'.mod exInput none) exStore' r' ∧ PEq r r' :=
  C37_calls exNet_layers exNet_ok exNet'_ok (fun _ _ => ⟨rfl, fun _ _ => rfl⟩) (by norm_num) exInput_isBatch _ rfl fun h => h

example : ∃ r r', Returns (exNet.mod.jTmjp exInput none (some ⟨[2, 1], fun _ => 1⟩) .weight true false false) exStore r ∧
    Returns (exNet'.mod.jTmjp exInput none (some ⟨[2, 1], fun _ => 1⟩) .weight true false false) exStore' r' ∧ List.Forall₂ TEq r.leaves r'.leaves :=
  C37_blocks exNet_layers exNet_ok exNet'_ok (fun _ _ => ⟨rfl, fun _ _ => rfl⟩) (by norm_num) exInput_isBatch true rfl

example : (exNet.mod.getWeight exStore).1 = (exNet'.mod.getWeight exStore').1 := C37_getWeight exNet_layers rfl


end Props
end NNJ
