import Verif.Spec.ChainRule
import Verif.Spec.Example
import Verif.Proofs.ChainRule
import Verif.Proofs.Calls

/-!
# C48: the chain rule between calls on a network and calls on its parts

These hold for whatever the layers return, also where a layer is not differentiable or its `jacobian` is not the derivative (L2Norm).
-/

namespace NNJ.Props
open NNJ Matrix Tensor

variable {s s' : List Nat} {n k p l : Nat} {st : Store ℝ} {B : Nat} {X : Fin B → Fin n → ℝ} {x : Tensor ℝ}

/-- C48: `jacobian` of a Sequential is the product of the Jacobians of its layers, each called on the output of the layer before;
wrt="weight" every layer contributes its own columns, multiplied by the Jacobians of the later layers. -/
theorem C48_sequential {id : Nat} {c : Chain s n s' k p (l + 1)} (h : (Net.seq id c).Ok st) (hB : 0 < B) (hx : IsBatch x B s n X) :
    ∃ y v jt, ∃ (J : Fin B → Matrix (Fin k) (Fin n) ℝ) (JW : Fin B → Matrix (Fin k) (Fin p) ℝ), LayerJacobians st c x v J JW ∧
      Returns ((Net.seq id c).mod.forward x) st y ∧ TEq y v ∧
      Returns ((Net.seq id c).mod.jacobian x none .input) st (some jt) ∧ IsMat jt B k n J ∧
      (0 < p → ∃ jw, Returns ((Net.seq id c).mod.jacobian x none .weight) st (some jw) ∧ IsMat jw B k p JW) := by
  have hnd := h.nodup
  have hw := h.wired
  rw [Net.ids] at hnd
  rw [Net.Wired] at hw
  obtain ⟨v, hv, hL⟩ := layerJacobians_run hB c (List.nodup_cons.1 hnd).2 hw.2 hx
  obtain ⟨y, hy, hY⟩ := h.forward hB hx
  obtain ⟨jt, hj, hJ⟩ := h.jacI hB hx
  simp only [Net.sem, Net.w, Net.J] at hY hJ
  refine ⟨y, v, jt, _, _, hL, hy, teq_batch h.g.hk hY hv, hj, hJ, fun hp => ?_⟩
  obtain ⟨jw, hj, hJ⟩ := h.jacW hB hx hp
  simp only [Net.sem, Net.w, Net.JW] at hJ
  exact ⟨jw, hj, hJ⟩

/-- C48, two layers: `Sequential(A, C).jacobian(x) = C.jacobian(A(x)) @ A.jacobian(x)`, all calls made in the same state; and the
columns of `wrt="weight"` are those of `A`, multiplied by `C.jacobian(A(x))`, followed by those of `C`. -/
theorem C48_two {id m q r : Nat} {s1 : List Nat} {hs hn} {A : Net s n s1 m q} {C : Net s1 m s' k r}
    (h : (Net.seq id (.snoc (.snoc (.nil s n hs hn) A) C)).Ok st) (hB : 0 < B) (hx : IsBatch x B s n X) :
    ∃ a ja jc jt, ∃ (JA : Fin B → Matrix (Fin m) (Fin n) ℝ) (JC : Fin B → Matrix (Fin k) (Fin m) ℝ),
      Returns (A.mod.forward x) st a ∧ Returns (A.mod.jacobian x none .input) st (some ja) ∧ IsMat ja B m n JA ∧
      Returns (C.mod.jacobian a none .input) st (some jc) ∧ IsMat jc B k m JC ∧
      Returns ((Net.seq id (.snoc (.snoc (.nil s n hs hn) A) C)).mod.jacobian x none .input) st (some jt) ∧
      IsMat jt B k n (fun b => JC b * JA b) ∧
      (0 < q → 0 < r → ∃ jwa jwc jw, ∃ (WA : Fin B → Matrix (Fin m) (Fin q) ℝ) (WC : Fin B → Matrix (Fin k) (Fin r) ℝ) (W : Fin B → Matrix (Fin k) (Fin (0 + q + r)) ℝ),
        Returns (A.mod.jacobian x none .weight) st (some jwa) ∧ IsMat jwa B m q WA ∧
        Returns (C.mod.jacobian a none .weight) st (some jwc) ∧ IsMat jwc B k r WC ∧
        Returns ((Net.seq id (.snoc (.snoc (.nil s n hs hn) A) C)).mod.jacobian x none .weight) st (some jw) ∧ IsMat jw B k (0 + q + r) W ∧
        ∀ b i, (∀ j : Fin q, W b i ⟨j, by omega⟩ = (JC b * WA b) i j) ∧ ∀ j : Fin r, W b i ⟨q + j, by omega⟩ = WC b i j) := by
  have hnd := h.nodup
  have hw := h.wired
  simp only [Net.ids, Chain.ids, List.nil_append] at hnd
  simp only [Net.Wired, Chain.Wired] at hw
  have hnd' := List.nodup_append.1 (List.nodup_cons.1 hnd).2
  have hA : A.Ok st := ⟨hnd'.1, hw.2.1.2.1⟩
  have hC : C.Ok st := ⟨hnd'.2.1, hw.2.2.1⟩
  obtain ⟨a, ha, hAa⟩ := hA.forward hB hx
  obtain ⟨ja, hja, hJA⟩ := hA.jacI hB hx
  obtain ⟨jc, hjc, hJC⟩ := hC.jacI hB hAa
  obtain ⟨jt, hj, hJ⟩ := h.jacI hB hx
  have e1 := wl_append (Fin.append (fun _ : Fin 0 => (0 : ℝ)) (A.w st)) (C.w st)
  have e2 := wr_append (Fin.append (fun _ : Fin 0 => (0 : ℝ)) (A.w st)) (C.w st)
  have e3 := wr_append (fun _ : Fin 0 => (0 : ℝ)) (A.w st)
  simp only [Net.J, Net.sem, Chain.sem, Sem.comp, Sem.id, Net.w, Chain.w, e1, e2, e3, Matrix.mul_one] at hJ
  refine ⟨a, ja, jc, jt, _, _, ha, hja, hJA, hjc, hJC, hj, hJ, fun hq hr => ?_⟩
  obtain ⟨jwa, hwa, hWA⟩ := hA.jacW hB hx hq
  obtain ⟨jwc, hwc, hWC⟩ := hC.jacW hB hAa hr
  obtain ⟨jw, hw, hW⟩ := h.jacW hB hx (by omega)
  simp only [Net.JW, Net.sem, Chain.sem, Sem.comp, Sem.id, Net.w, Chain.w, e1, e2, e3] at hW
  refine ⟨jwa, jwc, jw, _, _, _, hwa, hWA, hwc, hWC, hw, hW, fun b i => ⟨fun j => ?_, fun j => ?_⟩⟩
  · have : (⟨j, by omega⟩ : Fin (0 + q + r)) = Fin.castAdd r (Fin.natAdd 0 j) := by ext; simp
    rw [this, hcat, Fin.append_left, mul_apply, mul_apply]
    refine Finset.sum_congr rfl fun o _ => ?_
    rw [hcat, Fin.append_right]
    rfl
  · have : (⟨q + j, by omega⟩ : Fin (0 + q + r)) = Fin.natAdd (0 + q) j := by ext; simp
    rw [this, hcat, Fin.append_right]
    rfl

/-- C48: `SkipConnection(F).jacobian(x)` is the identity on top of `Sequential(F).jacobian(x)`; wrt="weight", zeros on top of it. -/
theorem C48_skip {id fid a c : Nat} {r : List Nat} {ch : Chain (a :: r) n (c :: r) k p (l + 1)} (h : (Net.skip id fid ch).Ok st) (hB : 0 < B)
    (hx : IsBatch x B (a :: r) n X) :
    ∃ jt jf, ∃ JF : Fin B → Matrix (Fin k) (Fin n) ℝ, Returns ((Net.skip id fid ch).mod.jacobian x none .input) st (some jt) ∧
      Returns ((Net.seq fid ch).mod.jacobian x none .input) st (some jf) ∧ IsMat jf B k n JF ∧
      IsMat jt B (n + k) n (fun b => Fin.append (1 : Matrix (Fin n) (Fin n) ℝ) (JF b)) ∧
      (0 < p → ∃ jw jwf, ∃ WF : Fin B → Matrix (Fin k) (Fin p) ℝ, Returns ((Net.skip id fid ch).mod.jacobian x none .weight) st (some jw) ∧
        Returns ((Net.seq fid ch).mod.jacobian x none .weight) st (some jwf) ∧ IsMat jwf B k p WF ∧
        IsMat jw B (n + k) p (fun b => Fin.append (0 : Matrix (Fin n) (Fin p) ℝ) (WF b))) := by
  have hnd := h.nodup
  have hw := h.wired
  rw [Net.ids] at hnd
  rw [Net.Wired] at hw
  have hF : (Net.seq fid ch).Ok st := ⟨by rw [Net.ids]; exact (List.nodup_cons.1 hnd).2, by rw [Net.Wired]; exact ⟨hw.1, hw.2.2⟩⟩
  obtain ⟨jt, hj, hJ⟩ := h.jacI hB hx
  obtain ⟨jf, hf, hJf⟩ := hF.jacI hB hx
  simp only [Net.sem, Net.w, Net.J] at hJ hJf
  refine ⟨jt, jf, _, hj, hf, hJf, hJ, fun hp => ?_⟩
  obtain ⟨jw, hj, hJ⟩ := h.jacW hB hx hp
  obtain ⟨jwf, hf, hJf⟩ := hF.jacW hB hx hp
  simp only [Net.sem, Net.w, Net.JW] at hJ hJf
  exact ⟨jw, jwf, _, hj, hf, hJf, hJ⟩

/-! the hypotheses can be met -/

example : ∃ y jt jw, ∃ (J : Fin 2 → Matrix (Fin 1) (Fin 2) ℝ) (JW : Fin 2 → Matrix (Fin 1) (Fin 21) ℝ),
    Returns (exNet.mod.forward exInput) exStore y ∧ Returns (exNet.mod.jacobian exInput none .input) exStore (some jt) ∧ IsMat jt 2 1 2 J ∧
    Returns (exNet.mod.jacobian exInput none .weight) exStore (some jw) ∧ IsMat jw 2 1 21 JW := by
  obtain ⟨y, _, jt, J, JW, _, h1, _, h2, h3, h4⟩ := C48_sequential exNet_ok (by norm_num) exInput_isBatch
  obtain ⟨jw, h5, h6⟩ := h4 (by norm_num)
  exact ⟨y, jt, jw, J, JW, h1, h2, h3, h5, h6⟩

/-- `Sequential(Linear(2, 3), Linear(3, 1))` -/
noncomputable def exTwo : Net [2] 2 [1] 1 (0 + (3 * 2 + 3) + (1 * 3 + 0)) :=
  .seq 0 (.snoc (.snoc (.nil [2] 2 rfl (by norm_num)) (.linear 1 0 (some 1) 2 3 (by norm_num) (by norm_num)))
    (.linear 2 3 none 3 1 (by norm_num) (by norm_num)))

/-- its state -/
noncomputable def exTwoStore : Store ℝ where
  param i := match i with
    | 0 => ⟨[3, 2], fun j => j⟩
    | 1 => ⟨[3], fun _ => 1⟩
    | _ => ⟨[1, 3], fun j => 1 - j⟩
  fmaps _ := some []
  pidx _ := none
  hooks i := if i = 0 then [] else [0]

theorem exTwo_ok : exTwo.Ok exTwoStore := by
  refine ⟨by simp only [exTwo, Net.ids, Chain.ids]; decide, ?_⟩
  simp [exTwo, Net.Wired, Chain.Wired, exTwoStore, Net.mod, Linear.mod, PureLayer.toMod]

example : ∃ jt ja jc, ∃ (JA : Fin 2 → Matrix (Fin 3) (Fin 2) ℝ) (JC : Fin 2 → Matrix (Fin 1) (Fin 3) ℝ), IsMat ja 2 3 2 JA ∧ IsMat jc 2 1 3 JC ∧
    Returns (exTwo.mod.jacobian exInput none .input) exTwoStore (some jt) ∧ IsMat jt 2 1 2 (fun b => JC b * JA b) := by
  obtain ⟨_, ja, jc, jt, JA, JC, _, _, h1, _, h2, h3, h4, _⟩ := C48_two exTwo_ok (by norm_num) exInput_isBatch
  exact ⟨jt, ja, jc, JA, JC, h1, h2, h3, h4⟩

example : ∃ jt jf, ∃ JF : Fin 1 → Matrix (Fin 2) (Fin 3) ℝ, IsMat jf 1 2 3 JF ∧
    Returns ((Net.skip 3 4 (a := 3) (c := 2) (r := []) (.snoc (.snoc (.nil [3] 3 rfl (by norm_num))
      (.linear 5 2 none 3 2 (by norm_num) (by norm_num))) (.act .relu 6 [2] 2 rfl (by norm_num)))).mod.jacobian ⟨[1, 3], fun i => i⟩ none .input) exStore (some jt) ∧
    IsMat jt 1 5 3 (fun b => Fin.append (1 : Matrix (Fin 3) (Fin 3) ℝ) (JF b)) := by
  obtain ⟨jt, jf, JF, h1, _, h2, h3, _⟩ := C48_skip (id := 3) (fid := 4) (a := 3) (c := 2) (r := []) (ch := (.snoc (.snoc (.nil [3] 3 rfl (by norm_num))
      (.linear 5 2 none 3 2 (by norm_num) (by norm_num))) (.act .relu 6 [2] 2 rfl (by norm_num)))) (st := exStore) (B := 1) (X := fun b i => (3 * b + i : ℝ))
      (x := ⟨[1, 3], fun i => i⟩) ⟨by simp only [Net.ids, Chain.ids]; decide, by
        simp [Net.Wired, Chain.Wired, exStore, Net.mod, Linear.mod, Activation.toMod, PureLayer.toMod]⟩ (by norm_num) ⟨rfl, fun b i => by simp⟩
  exact ⟨jt, jf, JF, h2, h1, h3⟩

end NNJ.Props
