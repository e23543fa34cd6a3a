import Verif.Proofs.ConvLayer
import Verif.Props.ConvGen

/-!
# C61: networks with other layers, in particular any Conv2d
-/

namespace NNJ
namespace Props
open Tensor Matrix

section
variable {s s' : List Nat} {n k p : Nat} {N : GNet s n s' k p} {st : Store ℝ}
variable {B : Nat} {X : Fin B → Fin n → ℝ} {x : Tensor ℝ}

/-- C61: if every other layer in a network does its part (`ILayer.Exact`), the network does too.  `forward` acts sample
by sample; `jacobian` with respect to the input is the derivative of `forward`, wherever the layers met are
differentiable; and `vjp`, `mjp` and `jTmjp` with respect to the input are the products with that matrix. -/
theorem C61_input (h : N.Ok st) (hB : 0 < B) (hx : IsBatch x B s n X) :
    (∃ t, Returns (N.mod.forward x) st t ∧ IsBatch t B s' k fun b => forwardMap N.mod st s (X b)) ∧
    ∃ jt J, Returns (N.mod.jacobian x none .input) st (some jt) ∧ IsMat jt B k n J ∧
      (∀ b, N.sem.smooth (N.w st) (X b) → HasFDerivAt (forwardMap N.mod st s) (linMap (J b)) (X b)) ∧
      (∀ v V, IsVec v B k V → ∃ t, Returns (N.mod.vjp x none v .input) st (some t) ∧ IsVec t B n fun b => V b ᵥ* J b) ∧
      (∀ r A Z, 0 < r → IsMat A B r k Z →
        ∃ t, Returns (N.mod.mjp x none (some A) .input) st (some t) ∧ IsMat t B r n fun b => Z b * J b) ∧
      (∀ fromDiag toDiag A Z, MetricArg fromDiag A B k Z →
        ∃ t, Returns (N.mod.jTmjp x none (some A) .input fromDiag toDiag false) st (.tensor t) ∧
          MetricOut toDiag t B n fun b => (J b)ᵀ * Z b * J b) := by
  refine ⟨?_, ?_⟩
  · obtain ⟨t, ht, hT⟩ := h.forward hB hx
    exact ⟨t, ht, by simpa only [h.forwardMap_eq] using hT⟩
  · obtain ⟨jt, hj, hJ⟩ := h.jacI hB hx
    refine ⟨jt, _, hj, hJ, fun b hs => ?_, fun v V hv => h.vjpI hB hx hv, fun r A Z hr hA => h.mjpI hB hx hr hA,
      fun fd td A Z hA => h.jTI hB hx fd td hA⟩
    rw [h.forwardMap_eq]
    exact N.diff h.exact _ _ hs

/-- C61: with `diag_backprop=True`, `jTmjp` multiplies by the entrywise squares of the matrices of the layers, one layer
after the other. -/
theorem C61_backprop (h : N.Ok st) (hB : 0 < B) (hx : IsBatch x B s n X) {A : Tensor ℝ} {d} (hA : IsVec A B k d) :
    ∃ t, Returns (N.mod.jTmjp x none (some A) .input true true true) st (.tensor t) ∧
      IsVec t B n fun b => d b ᵥ* N.sem.Q (N.w st) (X b) := h.jTIdb hB hx hA

/-- C61: after `val = forward(x)`, the products with this `val` are those without, and they change nothing in the
state. -/
theorem C61_val (h : N.Ok st) (hB : 0 < B) (hx : IsBatch x B s n X) :
    ∃ val st1 jt J, N.mod.forward x st = (.ok val, st1) ∧ Returns (N.mod.jacobian x none .input) st (some jt) ∧ IsMat jt B k n J ∧
      (∀ v V, IsVec v B k V → ∃ t, N.mod.vjp x (some val) v .input st1 = (.ok (some t), st1) ∧ IsVec t B n fun b => V b ᵥ* J b) ∧
      (∀ r A Z, 0 < r → IsMat A B r k Z →
        ∃ t, N.mod.mjp x (some val) (some A) .input st1 = (.ok (some t), st1) ∧ IsMat t B r n fun b => Z b * J b) ∧
      (∀ fromDiag toDiag A Z, MetricArg fromDiag A B k Z →
        ∃ t, N.mod.jTmjp x (some val) (some A) .input fromDiag toDiag false st1 = (.ok (.tensor t), st1) ∧
          MetricOut toDiag t B n fun b => (J b)ᵀ * Z b * J b) := by
  obtain ⟨jt, hj, hJ⟩ := h.jacI hB hx
  obtain ⟨val, st1, hv, hval, hst, hc⟩ := h.g.forward h.w hB hx
  have hw1 : N.mdl.wired st1 := h.g.wired_of hst.wiring h.w
  have hval' : N.mdl.VOk st1 X val := .inr (by rwa [h.g.Y_of hst.param])
  have eJ : N.mdl.J st1 X = fun b => N.J st (X b) := by rw [h.g.J_of hst.param, GNet.mdl_J]
  refine ⟨val, st1, jt, _, by rw [← GNet.mdl_m]; exact hv, hj, hJ, fun v V hV => ?_, fun r A Z hr hA => ?_, fun fd td A Z hA => ?_⟩
  · obtain ⟨o, s2, he, ho, hs⟩ := (h.g.vjpI hw1 hB hx hV).1 val hval' hc
    subst hs
    rw [eJ] at ho
    cases o with
    | none => exact ho.elim
    | some t => exact ⟨t, by rw [← GNet.mdl_m]; exact he, ho⟩
  · obtain ⟨o, s2, he, ho, hs⟩ := (h.g.mjpI hw1 hB hx hr hA).1 val hval' hc
    subst hs
    rw [eJ] at ho
    cases o with
    | none => exact ho.elim
    | some t => exact ⟨t, by rw [← GNet.mdl_m]; exact he, ho⟩
  · obtain ⟨o, s2, he, ho, hs⟩ := (h.g.jTI fd td hw1 hB hx hA).1 val hval' hc
    subst hs
    rw [eJ] at ho
    obtain ⟨t, rfl, ht⟩ := isTensor_iff.1 ho
    exact ⟨t, by rw [← GNet.mdl_m]; exact he, ht⟩

end

/-- C61: `nnj.Conv2d` with any padding, dilation and number of groups is such a layer. -/
theorem C61_conv (g : GConv) (id wId : Nat) (bId : Option Nat) : (g.layer id wId bId).Exact := g.layer_exact id wId bId

/-! ### example: a dilated convolution with two groups inside a Sequential and a SkipConnection -/

/-- the convolution -/
noncomputable def exGLayer : GNet [2, 3, 2] 12 [2, 5, 7] 70 10 := .layer (exG.layer 14 0 (some 1))

/-- `Sequential(SkipConnection(Tanh()), Conv2d(2, 2, 2, padding=(2, 3), dilation=..., groups=2), Flatten(),
Linear(70, 1, bias=False))`; the SkipConnection makes two channels out of one -/
noncomputable def exGNet : GNet [1, 3, 2] 6 [1] 1 80 :=
  .seq 10 (.snoc (.snoc (.snoc (.snoc (.nil [1, 3, 2] 6 rfl (by decide))
    (.skip (a := 1) (c := 1) 11 12 (.snoc (.nil [1, 3, 2] 6 rfl (by decide)) (.net (.act .tanh 13 [1, 3, 2] 6 rfl (by decide))))))
    exGLayer) (.net (.flatten 15 [2, 5, 7] 70 rfl (by decide)))) (.net (.linear 16 2 none 70 1 (by decide) (by decide))))

/-- parameters 0 and 1 are those of `exGStore`, parameter 2 is the weight of the Linear -/
noncomputable def exGNetStore : Store ℝ where
  param := fun i => if i = 0 then ⟨[2, 1, 2, 2], fun k => (k : ℝ) + 1⟩ else if i = 1 then ⟨[2], fun _ => 1⟩
    else ⟨[1, 70], fun k => k⟩
  fmaps := fun i => if i = 10 ∨ i = 12 then some [] else none
  pidx := fun _ => none
  hooks := fun i => if i = 11 ∨ i = 14 ∨ i = 15 ∨ i = 16 then [10] else if i = 13 then [12] else []

theorem exGNet_ok : exGNet.Ok exGNetStore where
  nodup := by
    simp only [exGNet, exGLayer, GNet.ids, GChain.ids, Net.ids]
    decide
  wired := by
    simp only [exGNet, exGLayer, GNet.Wired, GChain.Wired, Net.Wired, GNet.mod, Net.mod]
    refine ⟨rfl, ⟨⟨⟨⟨trivial, ⟨rfl, rfl, ⟨trivial, trivial, rfl⟩⟩, rfl⟩, ⟨rfl, ?_⟩, rfl⟩, trivial, rfl⟩, ⟨rfl, ?_⟩, rfl⟩⟩
    · intro b hb; cases hb; rfl
    · intro b hb; cases hb
  exact := by
    simp only [exGNet, exGLayer, GNet.LayersExact, GChain.LayersExact]
    exact ⟨⟨⟨⟨trivial, trivial, trivial⟩, C61_conv _ _ _ _⟩, trivial⟩, trivial⟩

theorem exGNet_batch : IsBatch (ones [2, 1, 3, 2] : Tensor ℝ) 2 [1, 3, 2] 6 fun _ _ => 1 := ⟨rfl, fun _ _ => rfl⟩

/-- every layer is differentiable everywhere -/
theorem exGNet_smooth (w x) : exGNet.sem.smooth w x := by
  simp only [exGNet, exGLayer, GNet.sem, GChain.sem, Net.sem, Sem.comp, Sem.id, Sem.skip, Act.sem, Sem.leaf0, Sem.leaf, ILayer.sem, GConv.layer,
    reshapeSem, linearSem, Act.smoothAt]
  simp

example : ∃ jt J, Returns (exGNet.mod.jacobian (ones [2, 1, 3, 2]) none .input) exGNetStore (some jt) ∧ IsMat jt 2 1 6 J ∧
    ∀ b, HasFDerivAt (forwardMap exGNet.mod exGNetStore [1, 3, 2]) (linMap (J b)) (fun _ => 1) := by
  obtain ⟨_, jt, J, h1, h2, h3, _⟩ := C61_input exGNet_ok (by norm_num) exGNet_batch
  exact ⟨jt, J, h1, h2, fun b => h3 b (exGNet_smooth _ _)⟩

example : ∃ val st1 t, exGNet.mod.forward (ones [2, 1, 3, 2]) exGNetStore = (.ok val, st1) ∧
    exGNet.mod.vjp (ones [2, 1, 3, 2]) (some val) (ones [2, 1]) .input st1 = (.ok (some t), st1) := by
  obtain ⟨val, st1, _, _, h1, _, _, h2, _⟩ := C61_val exGNet_ok (by norm_num) exGNet_batch
  obtain ⟨t, h3, _⟩ := h2 (ones [2, 1]) (fun _ _ => 1) ⟨rfl, fun _ _ => rfl⟩
  exact ⟨val, st1, t, h1, h3⟩

example : ∃ t, Returns (exGNet.mod.jTmjp (ones [2, 1, 3, 2]) none (some (ones [2, 1])) .input true true true) exGNetStore (.tensor t) ∧
    IsVec t 2 6 fun _ => (fun _ => 1) ᵥ* exGNet.sem.Q (exGNet.w exGNetStore) fun _ => 1 :=
  C61_backprop exGNet_ok (by norm_num) exGNet_batch (d := fun _ _ => 1) ⟨rfl, fun _ _ => rfl⟩

end Props
end NNJ
