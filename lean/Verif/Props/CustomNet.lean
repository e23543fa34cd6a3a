import Verif.Proofs.Custom
import Verif.Props.AbstractLayers

/-!
# C77: a new layer only has to implement `forward` and `jacobian` - up to the diagonal metrics

"This method has to be implemented for every new nnj layer.  Then all other jacobian products are usable."
(nnj/abstract_jacobian.py:29-32.)  `N` below is any nesting of Sequential and SkipConnection around library layers and layers whose
class defines only `forward` and `jacobian`; `COk` says that the objects are distinct and that these two methods are right.
-/

namespace NNJ
namespace Props
open Matrix Tensor

variable {s s' : List Nat} {n k p : Nat} {N : GNet s n s' k p} {st : Store ℝ}
variable {B : Nat} {X : Fin B → Fin n → ℝ} {x : Tensor ℝ}

/-- C77: `forward` works sample by sample. -/
theorem C77_forward (h : N.COk st) (hB : 0 < B) (hx : IsBatch x B s n X) :
    ∃ t, Returns (N.mod.forward x) st t ∧ IsBatch t B s' k fun b => forwardMap N.mod st s (X b) := by
  rw [h.forwardMap_eq]
  exact h.forward hB hx

/-- C77: `jacobian(x, None, wrt="input")` is the derivative of the forward map. -/
theorem C77_jacobian_input (h : N.COk st) (hB : 0 < B) (hx : IsBatch x B s n X) :
    ∃ jt J, Returns (N.mod.jacobian x none .input) st (some jt) ∧ IsMat jt B k n J ∧
      ∀ b : Fin B, N.sem.smooth (N.w st) (X b) → HasFDerivAt (forwardMap N.mod st s) (linMap (J b)) (X b) := by
  obtain ⟨jt, hj, hJ⟩ := h.jacI hB hx
  refine ⟨jt, _, hj, hJ, fun b hs => ?_⟩
  rw [h.forwardMap_eq]
  exact (N.cdiff h.customs _ _ hs).input

/-- C77: `jacobian(x, None, wrt="weight")` is the derivative of the output in the weights of `get_weight`/`set_weight`: the parameters of
library layers and new layers, in the order of the layers. -/
theorem C77_jacobian_weight (h : N.COk st) (hs : N.paramIds.Nodup) (hp : 0 < p) (hB : 0 < B) (hx : IsBatch x B s n X) :
    ∃ jt J wt w, Returns (N.mod.jacobian x none .weight) st (some jt) ∧ IsMat jt B k p J ∧
      N.mod.getWeight st = (.ok wt, st) ∧ IsVec1 wt p w ∧
      ∀ b : Fin B, N.sem.smooth w (X b) → HasFDerivAt (weightMap N.mod st x b) (linMap (J b)) w := by
  obtain ⟨jt, hj, hJ⟩ := h.jacW hB hx hp
  obtain ⟨wt, hw, hW⟩ := h.getWeight hs hp
  refine ⟨jt, _, wt, _, hj, hJ, hw, hW, fun b hsm => ?_⟩
  rw [h.weightMap_eq hs hB hx b]
  exact (N.cdiff h.customs _ _ hsm).weight

/-- C77: `vjp`, `mjp` and the full `jTmjp` are the products with the returned Jacobian, wrt the input. -/
theorem C77_reverse_input (h : N.COk st) (hB : 0 < B) (hx : IsBatch x B s n X) :
    ∃ jt J, Returns (N.mod.jacobian x none .input) st (some jt) ∧ IsMat jt B k n J ∧
      (∀ v V, IsVec v B k V → ∃ t, Returns (N.mod.vjp x none v .input) st (some t) ∧ IsVec t B n fun b => V b ᵥ* J b) ∧
      (∀ r A Z, 0 < r → IsMat A B r k Z →
        ∃ t, Returns (N.mod.mjp x none (some A) .input) st (some t) ∧ IsMat t B r n fun b => Z b * J b) ∧
      ∀ A Z, IsMat A B k k Z → ∃ t, Returns (N.mod.jTmjp x none (some A) .input false false false) st (.tensor t) ∧
        IsMat t B n n fun b => (J b)ᵀ * Z b * J b := by
  obtain ⟨jt, hj, hJ⟩ := h.jacI hB hx
  exact ⟨jt, _, hj, hJ, fun v V hv => h.vjpI hB hx hv, fun r A Z hr hA => h.mjpI hB hx hr hA, fun A Z hA => h.jTI hB hx hA⟩

/-- C77: the same wrt the weights; the full `Jᵀ M J` comes as the diagonal blocks, one per layer with parameters (see `GNet.Blocks`). -/
theorem C77_reverse_weight (h : N.COk st) (hp : 0 < p) (hB : 0 < B) (hx : IsBatch x B s n X) :
    ∃ jt J, Returns (N.mod.jacobian x none .weight) st (some jt) ∧ IsMat jt B k p J ∧
      (∀ v V, IsVec v B k V → ∃ t, Returns (N.mod.vjp x none v .weight) st (some t) ∧ IsVec t B p fun b => V b ᵥ* J b) ∧
      (∀ r A Z, 0 < r → IsMat A B r k Z →
        ∃ t, Returns (N.mod.mjp x none (some A) .weight) st (some t) ∧ IsMat t B r p fun b => Z b * J b) ∧
      ∀ A Z, IsMat A B k k Z → ∃ v, Returns (N.mod.jTmjp x none (some A) .weight false false false) st v ∧
        N.Blocks v B fun b => (J b)ᵀ * Z b * J b := by
  obtain ⟨jt, hj, hJ⟩ := h.jacW hB hx hp
  exact ⟨jt, _, hj, hJ, fun v V hv => h.vjpW hB hx hp hv, fun r A Z hr hA => h.mjpW hB hx hp hr hA, fun A Z hA => h.jTW hB hx hp hA⟩

/-- C77: `jvp`, `jmp` and `jmjTp`, with all combinations of `from_diag` and `to_diag`, wrt the input. -/
theorem C77_forward_mode_input (hf : N.FwdI) (h : N.COk st) (hB : 0 < B) (hx : IsBatch x B s n X) :
    ∃ jt J, Returns (N.mod.jacobian x none .input) st (some jt) ∧ IsMat jt B k n J ∧
      (∀ v V, IsVec v B n V → ∃ t, Returns (N.mod.jvp x none v .input) st (some t) ∧ IsVec t B k fun b => J b *ᵥ V b) ∧
      (∀ r A Z, IsMat A B n r Z →
        ∃ t, Returns (N.mod.jmp x none (some A) .input) st (some t) ∧ IsMat t B k r fun b => J b * Z b) ∧
      ∀ fromDiag toDiag A Z, MetricArg fromDiag A B n Z →
        ∃ t, Returns (N.mod.jmjTp x none (.tensor A) .input fromDiag toDiag false) st (some t) ∧
          MetricOut toDiag t B k fun b => J b * Z b * (J b)ᵀ := by
  obtain ⟨jt, hj, hJ⟩ := h.jacI hB hx
  exact ⟨jt, _, hj, hJ, fun v V hv => h.jvpI hf hB hx hv, fun r A Z hA => h.jmpI hf hB hx hA, fun fd td A Z hA => h.jmjI hf hB hx fd td hA⟩

/-- C77: the same wrt the weights; of a metric on all weights only the blocks of the layers count (`Sem.mask`). -/
theorem C77_forward_mode_weight (hf : N.FwdI) (hw : N.FwdW) (h : N.COk st) (hp : 0 < p) (hB : 0 < B) (hx : IsBatch x B s n X) :
    ∃ jt J, Returns (N.mod.jacobian x none .weight) st (some jt) ∧ IsMat jt B k p J ∧
      (∀ v V, IsVec v B p V → ∃ t, Returns (N.mod.jvp x none v .weight) st (some t) ∧ IsVec t B k fun b => J b *ᵥ V b) ∧
      (∀ r A Z, IsMat A B p r Z →
        ∃ t, Returns (N.mod.jmp x none (some A) .weight) st (some t) ∧ IsMat t B k r fun b => J b * Z b) ∧
      ∀ fromDiag toDiag A Z, MetricArg fromDiag A B p Z →
        ∃ t, Returns (N.mod.jmjTp x none (.tensor A) .weight fromDiag toDiag false) st (some t) ∧
          MetricOut toDiag t B k fun b => J b * N.sem.mask (Z b) * (J b)ᵀ := by
  obtain ⟨jt, hj, hJ⟩ := h.jacW hB hx hp
  exact ⟨jt, _, hj, hJ, fun v V hv => h.jvpW hf hw hB hx hp hv, fun r A Z hA => h.jmpW hf hw hB hx hp hA,
    fun fd td A Z hA => h.jmjW hf hp hB hx fd td hA⟩

open MChain in
theorem seq_diag_raises {sK : List Nat} {q j r l : Nat} {c : GChain s n s' k p l} {L : ILayer s' k sK j r}
    (h : (GNet.seq q (.snoc c (.layer L))).COk st) (hkj : k ≠ j) (hk : k ≠ 1) (hj : j ≠ 1) (hB : 0 < B)
    (hx : IsBatch x B s n X) (toDiag : Bool) :
    (∃ st', (GNet.seq q (.snoc c (.layer L))).mod.jTmjp x none none .input false toDiag false st = (.error .shape, st')) ∧
    ∀ A M, MetricArg true A B j M →
      ∃ st', (GNet.seq q (.snoc c (.layer L))).mod.jTmjp x none (some A) .input true toDiag false st = (.error .shape, st') := by
  have hcu := h.customs
  simp only [GNet.Customs, GChain.Customs] at hcu
  obtain ⟨hc, C, hC, rfl⟩ := hcu
  have hnd := h.nodup
  simp only [GNet.ids] at hnd
  have hg := GChain.cgood (.snoc c (.layer C.layer)) (by simp only [GNet.Customs, GChain.Customs]; exact ⟨hc, C, hC, rfl⟩) (List.nodup_cons.1 hnd).2
  have hw := h.w
  have hfw := h.same.forward
  simp only [GNet.cmdl, GNet.mod] at hw hfw
  obtain ⟨v, s1, hrun, hv, hst, hca⟩ := seq_forward hg.toI (by rw [GChain.cmchain_ids]; exact hnd) hw hB hx
  have hw1 : (seqMdl q (GChain.snoc c (.layer C.layer)).cmchain).wired s1 :=
    ⟨by rw [hst.some]; exact hw.1, (GChain.snoc c (.layer C.layer)).cmchain.wired_of hg.toI hst.wiring hw.2⟩
  have henv := env_of_cache hca hw1
  simp only [GChain.cmchain, GNet.cmdl] at henv
  obtain ⟨xl, vl, hl⟩ := henv.last
  have hwl : C.params s1 := hl.wired
  have hvl : IsBatch vl B sK j fun b => C.f (C.w s1) (c.cmchain.Y s1 X b) := hl.v_ok.resolve_left id
  obtain ⟨Jt, hJt, hJ⟩ := hC.jacobian hwl hB hl.x_ok (val := some vl) (by rintro _ ⟨⟩; exact hvl)
  have hml : c.mods.length = l := (GChain.sameBut c hc).length_eq.trans c.cmchain.mods_length
  have hlen : (c.mods ++ [C.mod]).length = l + 1 := by simp [hml]
  have hch : ∀ s2, Sequential.child (c.mods ++ [C.mod]) l s2 = (.ok C.mod, s2) := by
    intro s2
    have : (c.mods ++ [C.mod])[l]? = some C.mod := by
      rw [List.getElem?_append_right (by rw [hml]), hml]; simp
    simp only [Sequential.child, this]
  have key : ∀ A M, MetricArg true A B j M →
      Sequential.jTmjpInput q (l + 1) (c.mods ++ [C.mod]) true toDiag false (l + 1) (some A) s1 = (.error .shape, s1) := by
    intro A M hA
    rw [Sequential.jTmjpInput, Prog.bind_ok (hch s1), Prog.bind_ok hl.x_eq, Prog.bind_ok hl.v_eq]
    have e := C29_jTmjp_diag_raises (fwd := C.fwd s1) hJt hJ true (if l = 0 then toDiag else false) (.inl rfl) hkj.symm hj hk hA
    have e2 : C.mod.jTmjp xl (some vl) (some A) .input (if l = l + 1 - 1 then true else false) (if l = 0 then toDiag else false) false s1 =
        (.error .shape, s1) := by
      rw [if_pos (by omega)]
      show ((do let r ← (AbstractJacobian.defaults (C.fwd s1) (C.jac s1)).jTmjp _ _ _ _ _ _ _; pure (PyVal.ofOption r) : Res (PyVal ℝ)), s1) = _
      rw [e]; rfl
    simp only [Prog.bind_run, e2]
  have hrun' : Sequential.forward q true (c.mods ++ [C.mod]) x st = (.ok v, s1) := by
    have := congrFun (congrFun hfw x) st
    simp only [GChain.mods, GNet.mod] at this
    rw [show (Sequential.mod q true (c.mods ++ [C.layer.mod])).forward x st = Sequential.forward q true (c.mods ++ [C.mod]) x st from rfl] at this
    exact this.trans hrun
  simp only [GNet.mod, GChain.mods]
  constructor
  · refine ⟨s1, ?_⟩
    show Sequential.jTmjp q true (c.mods ++ [C.mod]) x none none .input false toDiag false st = _
    have hass : (Prog.assert ((!false) || (false && false && toDiag)) : Prog ℝ Unit) st = (.ok (), st) := rfl
    have hval : Sequential.getVal q true (c.mods ++ [C.mod]) x none st = (.ok v, s1) := hrun'
    have hone : MetricArg true (Tensor.ones [B, size sK] : Tensor ℝ) B j fun _ => diagonal fun _ => 1 := by
      rw [hC.hk]
      exact ⟨fun _ _ => 1, ⟨rfl, fun b i => rfl⟩, fun b => rfl⟩
    rw [Sequential.jTmjp, Prog.bind_ok hass, Prog.bind_ok hval, hlen, hv.1]
    have hlift : (liftM (Except.ok (Tensor.ones [B, size sK], true) : Res (Tensor ℝ × Bool)) : Prog ℝ _) s1 = (.ok (Tensor.ones [B, size sK], true), s1) := rfl
    refine (Prog.bind_ok hlift).trans ?_
    simp only [Prog.bind_run, key _ _ hone]
  · intro A M hA
    refine ⟨s1, ?_⟩
    show Sequential.jTmjp q true (c.mods ++ [C.mod]) x none (some A) .input true toDiag false st = _
    have hass : (Prog.assert ((!false) || (false && true && toDiag)) : Prog ℝ Unit) st = (.ok (), st) := rfl
    have hval : Sequential.getVal q true (c.mods ++ [C.mod]) x none st = (.ok v, s1) := hrun'
    rw [Sequential.jTmjp, Prog.bind_ok hass, Prog.bind_ok hval, hlen]
    have hlift : (liftM (Except.ok (A, true) : Res (Tensor ℝ × Bool)) : Prog ℝ _) s1 = (.ok (A, true), s1) := rfl
    refine (Prog.bind_ok hlift).trans ?_
    simp only [Prog.bind_run, key A M hA]

/-- C77: the promise does not extend to diagonal metrics.  A Sequential that ends with such a layer, with different input and output sizes
and neither of them 1, cannot compute `Jᵀ M J` for a metric given by its diagonal - nor for the default `matrix=None`. -/
theorem C77_jTmjp_diag_raises {sK : List Nat} {q j r l : Nat} {c : GChain s n s' k p l} {C : Custom s' k sK j r}
    (h : (GNet.seq q (.snoc c (.layer C.layer))).COk st) (hkj : k ≠ j) (hk : k ≠ 1) (hj : j ≠ 1) (hB : 0 < B)
    (hx : IsBatch x B s n X) (toDiag : Bool) :
    (∃ st', (GNet.seq q (.snoc c (.layer C.layer))).mod.jTmjp x none none .input false toDiag false st = (.error .shape, st')) ∧
    ∀ A M, MetricArg true A B j M →
      ∃ st', (GNet.seq q (.snoc c (.layer C.layer))).mod.jTmjp x none (some A) .input true toDiag false st = (.error .shape, st') := by
  exact seq_diag_raises h hkj hk hj hB hx toDiag

/-! ### the hypotheses can be met -/

/-- A layer that scales its input by its parameter `a` and appends the product: `y = (a x₁, a x₂, x₁ x₂)`.  Only `forward` and `jacobian`
are written. -/
noncomputable def exCustom : Custom [2] 2 [3] 3 1 where
  id := 1
  ps := [2]
  fwd st x := match x.shape with
    | [B, 2] => .ok (ofFn [B, 3] fun
      | [b, 0] => (st.param 2).data 0 * x.get [b, 0]
      | [b, 1] => (st.param 2).data 0 * x.get [b, 1]
      | [b, _] => x.get [b, 0] * x.get [b, 1]
      | _ => 0)
    | _ => .error .shape
  jac st x _ wrt := match x.shape, wrt with
    | [B, 2], .input => .ok (some (ofFn [B, 3, 2] fun
      | [_, 0, 0] => (st.param 2).data 0
      | [_, 1, 1] => (st.param 2).data 0
      | [b, 2, 0] => x.get [b, 1]
      | [b, 2, 1] => x.get [b, 0]
      | _ => 0))
    | [B, 2], .weight => .ok (some (ofFn [B, 3, 1] fun
      | [b, 0, _] => x.get [b, 0]
      | [b, 1, _] => x.get [b, 1]
      | _ => 0))
    | _, _ => .error .shape
  params st := (st.param 2).shape = [1]
  f w x := ![w 0 * x 0, w 0 * x 1, x 0 * x 1]
  J w x := !![w 0, 0; 0, w 0; x 1, x 0]
  JW _ x := !![x 0; x 1; 0]
  smooth _ _ := True

theorem exCustom_deriv (w : Fin 1 → ℝ) (x : Fin 2 → ℝ) :
    HasFDerivAt (fun z : (Fin 1 → ℝ) × (Fin 2 → ℝ) => exCustom.f z.1 z.2)
    ((linMap (exCustom.JW w x)).comp (ContinuousLinearMap.fst ℝ _ _) + (linMap (exCustom.J w x)).comp (ContinuousLinearMap.snd ℝ _ _)) (w, x) := by
  have h1 : ∀ i : Fin 1, HasFDerivAt (fun z : (Fin 1 → ℝ) × (Fin 2 → ℝ) => z.1 i)
      ((ContinuousLinearMap.proj i).comp (ContinuousLinearMap.fst ℝ _ _)) (w, x) := fun i =>
    ((ContinuousLinearMap.proj (R := ℝ) (φ := fun _ => ℝ) i).comp (ContinuousLinearMap.fst ℝ (Fin 1 → ℝ) (Fin 2 → ℝ))).hasFDerivAt
  have h2 : ∀ i : Fin 2, HasFDerivAt (fun z : (Fin 1 → ℝ) × (Fin 2 → ℝ) => z.2 i)
      ((ContinuousLinearMap.proj i).comp (ContinuousLinearMap.snd ℝ _ _)) (w, x) := fun i =>
    ((ContinuousLinearMap.proj (R := ℝ) (φ := fun _ => ℝ) i).comp (ContinuousLinearMap.snd ℝ (Fin 1 → ℝ) (Fin 2 → ℝ))).hasFDerivAt
  rw [hasFDerivAt_pi']
  intro i
  fin_cases i
  · refine ((h1 0).mul (h2 0)).congr_fderiv (ContinuousLinearMap.ext fun z => ?_)
    simp [linMap, exCustom, mulVec, dotProduct, Fin.sum_univ_two]; ring
  · refine ((h1 0).mul (h2 1)).congr_fderiv (ContinuousLinearMap.ext fun z => ?_)
    simp [linMap, exCustom, mulVec, dotProduct, Fin.sum_univ_two]; ring
  · refine ((h2 0).mul (h2 1)).congr_fderiv (ContinuousLinearMap.ext fun z => ?_)
    simp [linMap, exCustom, mulVec, dotProduct, Fin.sum_univ_two]; ring

theorem exCustom_w {st : Store ℝ} (h : exCustom.params st) : exCustom.w st 0 = (st.param 2).data 0 := by
  simp only [exCustom] at h
  simp [Custom.w, exCustom, flatAt, Tensor.numel, h, size]

theorem exCustom_forward {st : Store ℝ} {B : Nat} {X x} (h : exCustom.params st) (hx : IsBatch x B [2] 2 X) :
    ∃ t, exCustom.fwd st x = .ok t ∧ IsBatch t B [3] 3 fun b => exCustom.f (exCustom.w st) (X b) := by
  have hg : ∀ (b : Fin B) (i : Fin 2), x.get [b, i] = X b i := fun b i => by rw [get2 hx.1]; exact hx.2 b i
  refine ⟨_, by simp only [exCustom, hx.1]; rfl, rfl, fun b i => ?_⟩
  rw [← get2 (t := ofFn [B, 3] _) rfl, get_ofFn _ (by simp [b.2, i.2])]
  have h0 := hg b 0
  have h1 := hg b 1
  have hw := exCustom_w h
  generalize exCustom.w st = w at hw
  fin_cases i <;> simp_all [exCustom]

theorem exCustom_jacobian {st : Store ℝ} {B : Nat} {X x val} (h : exCustom.params st) (hx : IsBatch x B [2] 2 X) :
    ∃ t, exCustom.jac st x val .input = .ok (some t) ∧ IsMat t B 3 2 fun b => exCustom.J (exCustom.w st) (X b) := by
  have hg : ∀ (b : Fin B) (i : Fin 2), x.get [b, i] = X b i := fun b i => by rw [get2 hx.1]; exact hx.2 b i
  refine ⟨_, by simp only [exCustom, hx.1]; rfl, rfl, fun b i j => ?_⟩
  rw [get_ofFn _ (by simp [b.2, i.2, j.2])]
  have h0 := hg b 0
  have h1 := hg b 1
  have hw := exCustom_w h
  generalize exCustom.w st = w at hw
  fin_cases i <;> fin_cases j <;> simp_all [exCustom]

theorem exCustom_jacobianW {st : Store ℝ} {B : Nat} {X x val} (hx : IsBatch x B [2] 2 X) :
    ∃ t, exCustom.jac st x val .weight = .ok (some t) ∧ IsMat t B 3 1 fun b => exCustom.JW (exCustom.w st) (X b) := by
  have hg : ∀ (b : Fin B) (i : Fin 2), x.get [b, i] = X b i := fun b i => by rw [get2 hx.1]; exact hx.2 b i
  refine ⟨_, by simp only [exCustom, hx.1]; rfl, rfl, fun b i j => ?_⟩
  rw [get_ofFn _ (by simp [b.2, i.2])]
  have h0 := hg b 0
  have h1 := hg b 1
  fin_cases i <;> fin_cases j <;> simp_all [exCustom]

theorem exCustom_right : exCustom.Right where
  hn := rfl
  hk := rfl
  npos := by norm_num
  kpos := by norm_num
  params_of h hs := by simp only [exCustom] at hs ⊢; rw [h, hs]
  len {st} h := by simp only [exCustom] at h; simp [exCustom, flatLen, Tensor.numel, h, size]
  deriv w x _ := exCustom_deriv w x
  forward h _ hx := exCustom_forward h hx
  jacobian h _ hx _ := exCustom_jacobian h hx
  jacobianW _ _ _ hx _ := exCustom_jacobianW hx
  jacobianNone h := by omega
  noNone st x val wrt _ := by simp only [exCustom]; split <;> simp

/-- `Sequential(Linear(1, 2), exCustom)` -/
noncomputable def exCustomNet : GNet [1] 1 [3] 3 (0 + (2 * 1 + 2) + 1) :=
  .seq 5 (.snoc (.snoc (.nil [1] 1 rfl (by norm_num)) (.net (.linear 0 0 (some 1) 1 2 (by norm_num) (by norm_num)))) (.layer exCustom.layer))

/-- a state holding it: `W = [[0], [1]]`, `b = [1, 1]`, `a = 4` -/
noncomputable def exCustomStore : Store ℝ where
  param i := match i with
    | 0 => ⟨[2, 1], fun j => j⟩
    | 1 => ⟨[2], fun _ => 1⟩
    | _ => ⟨[1], fun _ => 4⟩
  fmaps i := if i = 5 then some [] else none
  pidx _ := none
  hooks i := if i = 5 then [] else [5]

theorem exCustomNet_ok : exCustomNet.COk exCustomStore := by
  refine ⟨by simp only [exCustomNet, GNet.ids, GChain.ids, Net.ids, Custom.layer, Custom.mod, PureLayer.toMod, exCustom]; decide, ?_, ?_⟩
  · simp [exCustomNet, GNet.Wired, GChain.Wired, Net.Wired, exCustomStore, GNet.mod, Net.mod, Linear.mod, PureLayer.toMod, Custom.layer, Custom.mod,
      exCustom]
  · simp only [exCustomNet, GNet.Customs, GChain.Customs]
    exact ⟨⟨trivial, trivial⟩, exCustom, exCustom_right, rfl⟩

theorem exCustomNet_params : exCustomNet.paramIds.Nodup := by
  simp [exCustomNet, GNet.paramIds, GChain.paramIds, Net.paramIds, Custom.layer, Custom.mod, PureLayer.toMod, exCustom]

theorem exCustomNet_fwd : exCustomNet.FwdI ∧ exCustomNet.FwdW := by
  simp [exCustomNet, GNet.FwdI, GChain.FwdI, GNet.FwdW, GChain.FwdW, Net.FwdI, Net.FwdW]

/-- one sample, `x = 3` -/
noncomputable def exCustomInput : Tensor ℝ := ⟨[1, 1], fun _ => 3⟩
theorem exCustomInput_isBatch : IsBatch exCustomInput 1 [1] 1 fun _ _ => 3 := ⟨rfl, fun _ _ => rfl⟩

example := C77_forward exCustomNet_ok one_pos exCustomInput_isBatch
example := C77_jacobian_input exCustomNet_ok one_pos exCustomInput_isBatch
example := C77_jacobian_weight exCustomNet_ok exCustomNet_params (by norm_num) one_pos exCustomInput_isBatch
example : ∀ w x, exCustomNet.sem.smooth w x := by
  intro w x
  simp [exCustomNet, GNet.sem, GChain.sem, Net.sem, Sem.comp, Sem.id, Sem.leaf, ILayer.sem, Custom.layer, exCustom, linearSem]
example := C77_reverse_input exCustomNet_ok one_pos exCustomInput_isBatch
example := C77_reverse_weight exCustomNet_ok (by norm_num) one_pos exCustomInput_isBatch
example := C77_forward_mode_input exCustomNet_fwd.1 exCustomNet_ok one_pos exCustomInput_isBatch
example := C77_forward_mode_weight exCustomNet_fwd.1 exCustomNet_fwd.2 exCustomNet_ok (by norm_num) one_pos exCustomInput_isBatch
/-- `jTmjp(x, None, None)` of `Sequential(Linear(1, 2), exCustom)` raises -/
example : ∃ st', exCustomNet.mod.jTmjp exCustomInput none none .input false false false exCustomStore = (.error .shape, st') :=
  (C77_jTmjp_diag_raises exCustomNet_ok (by norm_num) (by norm_num) (by norm_num) one_pos exCustomInput_isBatch false).1

end Props
end NNJ
