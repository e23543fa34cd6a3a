import Verif.Spec.Example
import Verif.Proofs.DerivAct
import Verif.Proofs.ChainRule
import Verif.Props.Jacobian

/-!
# C59: user-defined elementwise layers

A subclass of AbstractDiagonalJacobian with a forward function `f` and a Jacobian diagonal `g(x, val)`, entry by entry: the extension point of
nnj/abstract_diagonal_jacobian.py.  `Act.custom f g` is one of the layers that networks (`Net`) are made of, so C01-C56 hold for networks
with such layers anywhere; here what they mean for the author of a layer.
-/

namespace NNJ.Props
open NNJ Matrix Tensor

variable {s s' : List Nat} {n k p : Nat} (st : Store ℝ) {B : Nat} {X : Fin B → Fin n → ℝ} {x : Tensor ℝ}

/-- C59: `jacobian(x, None)` of the layer is diagonal with entries `g(x, f(x))`, and it is the derivative of `forward` exactly if `g(x, f(x))` is the
derivative of `f` at every entry. -/
theorem C59_layer (f : ℝ → ℝ) (g : ℝ → ℝ → ℝ) (id : Nat) (hs : size s = n) (hn : 0 < n) (hB : 0 < B) (hx : IsBatch x B s n X) :
    ∃ jt, Returns ((Activation.toMod (Activation.custom f g) id).jacobian x none .input) st (some jt) ∧
      IsMat jt B n n (fun b => diagonal fun i => g (X b i) (f (X b i))) ∧
      ∀ b, HasFDerivAt (forwardMap (Activation.toMod (Activation.custom f g) id) st s) (linMap (diagonal fun i => g (X b i) (f (X b i)))) (X b) ↔
        ∀ i, HasDerivAt f (g (X b i) (f (X b i))) (X b i) := by
  have h := actNet_ok (.custom f g) id hs hn st
  obtain ⟨jt, hj, hJ⟩ := h.jacI hB hx
  refine ⟨jt, hj, hJ, fun b => ?_⟩
  have e := h.forwardMap_eq
  simp only [Net.mod, Act.layer] at e
  rw [e]
  exact hasFDerivAt_diagonal_iff f _ _

/-- C59: with `val` given the layer does not call `forward`: whatever `val` is, the diagonal is `g(x, val)`. -/
theorem C59_val (f : ℝ → ℝ) (g : ℝ → ℝ → ℝ) (id : Nat) (hs : size s = n) (hB : 0 < B) (hx : IsBatch x B s n X) {v : Tensor ℝ}
    {V : Fin B → Fin n → ℝ} (hv : IsBatch v B s n V) :
    ∃ jt, Returns ((Activation.toMod (Activation.custom f g) id).jacobian x (some v) .input) st (some jt) ∧
      IsMat jt B n n (fun b => diagonal fun i => g (X b i) (V b i)) := by
  have hd : IsBatch (Activation.customDiag g x v) B s n fun b i => g (X b i) (V b i) := ⟨hv.1, fun b i => by
    show g _ _ = g _ _
    rw [hx.2, hv.2]⟩
  have key : Ret ((Activation.custom f g).jacobian x (some v) .input) (IsSome fun t => IsMat t B n n fun b => diagonal fun i => g (X b i) (V b i)) :=
    Ret.sok (b := v) rfl (Ret.sok hv.dim0 ((reshapeInfer_batch hd hs hB).bind fun r hr => (diagEmbed_vec hr).some))
  obtain ⟨r, hr, hR⟩ := key
  cases r with
  | none => exact hR.elim
  | some t => exact ⟨t, hr, hR⟩

/-- C59: such a layer between any two networks.  `jacobian` and `vjp` of `Sequential(A, layer, C)` multiply the Jacobians of `A` at `x` and of `C` at the
output of the layer with the diagonal `g(a, f(a))`, `a = A(x)`, whether or not that is a derivative; if the three Jacobians are derivatives, so is their product. -/
theorem C59_between {id aid m q r : Nat} {s1 : List Nat} {hs hn hs1 hn1} {A : Net s n s1 m q} {C : Net s1 m s' k r} (f : ℝ → ℝ) (g : ℝ → ℝ → ℝ)
    (h : (Net.seq id (.snoc (.snoc (.snoc (.nil s n hs hn) A) (.act (.custom f g) aid s1 m hs1 hn1)) C)).Ok st) (hB : 0 < B) (hx : IsBatch x B s n X)
    {u : Tensor ℝ} {U : Fin B → Fin k → ℝ} (hu : IsVec u B k U) :
    ∃ ja y jc jt ut, ∃ (JA : Fin B → Matrix (Fin m) (Fin n) ℝ) (JC : Fin B → Matrix (Fin k) (Fin m) ℝ) (Y : Fin B → Fin m → ℝ),
      Returns (A.mod.jacobian x none .input) st (some ja) ∧ IsMat ja B m n JA ∧
      (∀ b, Y b = forwardMap A.mod st s (X b)) ∧ IsBatch y B s1 m (fun b i => f (Y b i)) ∧
      Returns (C.mod.jacobian y none .input) st (some jc) ∧ IsMat jc B k m JC ∧
      Returns ((Net.seq id (.snoc (.snoc (.snoc (.nil s n hs hn) A) (.act (.custom f g) aid s1 m hs1 hn1)) C)).mod.jacobian x none .input) st (some jt) ∧
      IsMat jt B k n (fun b => JC b * (diagonal fun i => g (Y b i) (f (Y b i))) * JA b) ∧
      Returns ((Net.seq id (.snoc (.snoc (.snoc (.nil s n hs hn) A) (.act (.custom f g) aid s1 m hs1 hn1)) C)).mod.vjp x none u .input) st (some ut) ∧
      IsVec ut B n (fun b => U b ᵥ* (JC b * (diagonal fun i => g (Y b i) (f (Y b i))) * JA b)) ∧
      ∀ b, HasFDerivAt (forwardMap A.mod st s) (linMap (JA b)) (X b) → (∀ i, HasDerivAt f (g (Y b i) (f (Y b i))) (Y b i)) →
        HasFDerivAt (forwardMap C.mod st s1) (linMap (JC b)) (fun i => f (Y b i)) →
        HasFDerivAt (forwardMap (Net.seq id (.snoc (.snoc (.snoc (.nil s n hs hn) A) (.act (.custom f g) aid s1 m hs1 hn1)) C)).mod st s)
          (linMap (JC b * (diagonal fun i => g (Y b i) (f (Y b i))) * JA b)) (X b) := by
  have hnd := h.nodup
  have hw := h.wired
  simp only [Net.ids, Chain.ids, List.nil_append] at hnd
  simp only [Net.Wired, Chain.Wired] at hw
  have hnd' := List.nodup_append.1 (List.nodup_cons.1 hnd).2
  have hA : A.Ok st := ⟨(List.nodup_append.1 hnd'.1).1, hw.2.1.1.2.1⟩
  have hC : C.Ok st := ⟨hnd'.2.1, hw.2.2.1⟩
  obtain ⟨ja, hja, hJA⟩ := hA.jacI hB hx
  obtain ⟨a, ha, hAa⟩ := hA.forward hB hx
  have hy : IsBatch (a.map f) B s1 m fun b i => f (A.sem.f (A.w st) (X b) i) := hAa.map f
  obtain ⟨jc, hjc, hJC⟩ := hC.jacI hB hy
  obtain ⟨jt, hj, hJ⟩ := h.jacI hB hx
  obtain ⟨ut, huu, hU⟩ := h.vjpI hB hx hu
  have e1 := wl_append (Fin.append (Fin.append (fun _ : Fin 0 => (0 : ℝ)) (A.w st)) (fun _ : Fin 0 => (0 : ℝ))) (C.w st)
  have e2 := wr_append (Fin.append (Fin.append (fun _ : Fin 0 => (0 : ℝ)) (A.w st)) (fun _ : Fin 0 => (0 : ℝ))) (C.w st)
  have e3 := wl_append (Fin.append (fun _ : Fin 0 => (0 : ℝ)) (A.w st)) (fun _ : Fin 0 => (0 : ℝ))
  have e4 := wr_append (fun _ : Fin 0 => (0 : ℝ)) (A.w st)
  have eJ : ∀ z, (Net.seq id (.snoc (.snoc (.snoc (.nil s n hs hn) A) (.act (.custom f g) aid s1 m hs1 hn1)) C)).J st z =
      C.J st (fun i => f (A.sem.f (A.w st) z i)) * (diagonal fun i => g (A.sem.f (A.w st) z i) (f (A.sem.f (A.w st) z i))) * A.J st z := fun z => by
    simp only [Net.J, Net.sem, Chain.sem, Sem.comp, Sem.id, Net.w, Chain.w, e1, e2, e3, e4, Matrix.mul_one, Act.sem, Sem.leaf0, Sem.leaf, Act.fn, Act.deriv,
      Matrix.mul_assoc]
  simp only [eJ] at hJ hU
  refine ⟨ja, a.map f, jc, jt, ut, _, _, _, hja, hJA, fun b => by rw [hA.forwardMap_eq], hy, hjc, hJC, hj, hJ, huu, hU, fun b h1 h2 h3 => ?_⟩
  have ef : forwardMap (n := n) (k := k) (Net.seq id (.snoc (.snoc (.snoc (.nil s n hs hn) A) (.act (.custom f g) aid s1 m hs1 hn1)) C)).mod st s =
      fun z => forwardMap C.mod st s1 fun i : Fin m => f (forwardMap A.mod st s z i) := by
    rw [h.forwardMap_eq, hC.forwardMap_eq, hA.forwardMap_eq]
    funext z
    simp only [Net.sem, Chain.sem, Sem.comp, Sem.id, Net.w, Chain.w, e1, e2, e3, e4, Act.sem, Sem.leaf0, Sem.leaf, Act.fn]
  rw [ef]
  have h2' : HasFDerivAt (fun (z : Fin m → ℝ) i => f (z i)) (linMap (diagonal fun i => g (A.sem.f (A.w st) (X b) i) (f (A.sem.f (A.w st) (X b) i))))
      (forwardMap A.mod st s (X b)) := by
    rw [hA.forwardMap_eq]
    exact (hasFDerivAt_diagonal_iff f _ _).2 h2
  have h3' : HasFDerivAt (forwardMap C.mod st s1) (linMap (C.J st fun i => f (A.sem.f (A.w st) (X b) i))) (fun i => f (forwardMap A.mod st s (X b) i)) := by
    rw [hA.forwardMap_eq]
    exact h3
  have h4 := HasFDerivAt.comp (g := fun z : Fin m → ℝ => forwardMap C.mod st s1 fun i => f (z i)) (X b) (HasFDerivAt.comp
    (g := forwardMap (k := k) C.mod st s1) (f := fun (z : Fin m → ℝ) i => f (z i)) (forwardMap A.mod st s (X b)) h3' h2') h1
  refine HasFDerivAt.congr_fderiv h4 ?_
  refine ContinuousLinearMap.ext fun z => ?_
  simp [Matrix.mulVec_mulVec, Matrix.mul_assoc]

/-! ### Examples -/

/-- `Sequential(Linear(2, 3), Cube(), Linear(3, 2, bias=False))` with the layer `x ** 3` and its derivative `3 * x ** 2` -/
noncomputable def exCube : Net [2] 2 [2] 2 (0 + (3 * 2 + 3) + 0 + (2 * 3 + 0)) :=
  .seq 0 (.snoc (.snoc (.snoc (.nil [2] 2 rfl (by norm_num)) (.linear 1 0 (some 1) 2 3 (by norm_num) (by norm_num)))
    (.act (.custom (fun a => a ^ 3) fun a _ => 3 * a ^ 2) 2 [3] 3 rfl (by norm_num))) (.linear 3 2 none 3 2 (by norm_num) (by norm_num)))

theorem exCube_ok : exCube.Ok exStore := by
  refine ⟨by simp only [exCube, Net.ids, Chain.ids]; decide, ?_⟩
  simp [exCube, Net.Wired, Chain.Wired, exStore, Net.mod, Linear.mod, Activation.toMod, PureLayer.toMod]

example : ∃ jt ut, ∃ J : Fin 2 → Matrix (Fin 2) (Fin 2) ℝ, Returns (exCube.mod.jacobian exInput none .input) exStore (some jt) ∧ IsMat jt 2 2 2 J ∧
    Returns (exCube.mod.vjp exInput none ⟨[2, 2], fun _ => 1⟩ .input) exStore (some ut) ∧ IsVec ut 2 2 (fun b => (fun _ => 1) ᵥ* J b) := by
  obtain ⟨_, _, _, jt, ut, _, _, _, _, _, _, _, _, _, h1, h2, h3, h4, _⟩ := C59_between exStore (fun a : ℝ => a ^ 3) (fun a _ => 3 * a ^ 2) exCube_ok two_pos
    exInput_isBatch (u := ⟨[2, 2], fun _ => 1⟩) (U := fun _ _ => 1) ⟨rfl, fun _ _ => rfl⟩
  exact ⟨jt, ut, _, h1, h2, h3, h4⟩

/-- the cube is differentiable everywhere, so C01 applies at every input -/
example : ∃ jt J, Returns (exCube.mod.jacobian exInput none .input) exStore (some jt) ∧ IsMat jt 2 2 2 J ∧
    ∀ b : Fin 2, HasFDerivAt (forwardMap exCube.mod exStore [2]) (linMap (J b)) (fun i => (2 * b + i : ℝ)) := by
  obtain ⟨jt, J, h, hJ, hd⟩ := C01_jacobian_input exCube_ok two_pos exInput_isBatch
  refine ⟨jt, J, h, hJ, fun b => hd b ?_⟩
  simp only [exCube, Net.sem, Chain.sem, Sem.comp, Sem.id, linearSem, Act.sem, Sem.leaf0, Sem.leaf, Act.smoothAt, and_true, true_and]
  exact fun i => by simpa using hasDerivAt_pow 3 _

/-- with the derivative of another function the layer still answers, but not with the derivative -/
example (st : Store ℝ) : ∃ jt, Returns ((Activation.toMod (Activation.custom (fun a : ℝ => a ^ 3) fun a _ => 2 * a) 0).jacobian ⟨[1, 1], fun _ => 1⟩ none .input) st
      (some jt) ∧ IsMat jt 1 1 1 (fun _ => diagonal fun _ => 2) ∧
    ¬ HasFDerivAt (forwardMap (Activation.toMod (Activation.custom (fun a : ℝ => a ^ 3) fun a _ => 2 * a) 0) st [1]) (linMap (diagonal fun _ : Fin 1 => 2)) fun _ => 1 := by
  obtain ⟨jt, h1, h2, h3⟩ := C59_layer st (fun a => a ^ 3) (fun a _ => 2 * a) 0 (s := [1]) (n := 1) rfl one_pos one_pos (B := 1) (X := fun _ _ => 1)
    (x := ⟨[1, 1], fun _ => 1⟩) ⟨rfl, fun _ _ => rfl⟩
  simp only [mul_one] at h2 h3
  refine ⟨jt, h1, h2, fun hd => ?_⟩
  have := (h3 0).1 hd 0
  have e := this.unique (hasDerivAt_pow 3 (1 : ℝ))
  norm_num at e

example (st : Store ℝ) : ∃ jt, Returns ((Activation.toMod (Activation.custom (fun a : ℝ => a) fun _ v => v) 0).jacobian ⟨[1, 2], fun _ => 1⟩ (some ⟨[1, 2], fun _ => 5⟩)
    .input) st (some jt) ∧ IsMat jt 1 2 2 (fun _ => diagonal fun _ => 5) :=
  C59_val st (fun a => a) (fun _ v => v) 0 (s := [2]) (n := 2) rfl one_pos (B := 1) (X := fun _ _ => 1) ⟨rfl, fun _ _ => rfl⟩ (V := fun _ _ => 5) ⟨rfl, fun _ _ => rfl⟩

end NNJ.Props
