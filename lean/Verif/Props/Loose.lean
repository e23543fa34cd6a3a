import Verif.Proofs.LooseNet
import Verif.Spec.Example

/-!
# C67: forward mode does not depend on hooks, caches, or on layer objects being distinct
-/

namespace NNJ.Props
open NNJ Matrix Tensor

variable {s s' : List Nat} {n k p : Nat} {N : Net s n s' k p} {st : Store ℝ}
variable {B : Nat} {X : Fin B → Fin n → ℝ} {x : Tensor ℝ}

/-- `forward` computes the same map sample by sample, for every network expression `N`, including those in which a layer
object is used several times, and whatever hooks are registered. -/
theorem C67_forward (h : N.Loose st) :
    (∀ z : Fin n → ℝ, ∃ t, Returns (N.mod.forward (ofSample s z)) st t ∧ t.shape = 1 :: s' ∧
      ∀ i : Fin k, t.data i = forwardMap (k := k) N.mod st s z i) ∧
    (0 < B → IsBatch x B s n X → ∃ t, Returns (N.mod.forward x) st t ∧ IsBatch t B s' k (fun b => forwardMap N.mod st s (X b)) ∧
      N.Loose (N.mod.forward x st).2) := by
  constructor
  · intro z
    obtain ⟨t, ht, hT, -⟩ := h.forward Nat.one_pos (ofSample_isBatch z)
    exact ⟨t, ht, hT.1, fun i => by rw [h.forwardMap_eq]; simpa using hT.2 0 i⟩
  · intro hB hx
    obtain ⟨t, ht, hT, hl⟩ := h.forward hB hx
    refine ⟨t, ht, ?_, hl⟩
    simpa only [h.forwardMap_eq] using hT

/-- `jvp` and `jmp` with respect to the input multiply by the derivative of `forward`. -/
theorem C67_input (hf : N.FwdI) (h : N.Loose st) (hB : 0 < B) (hx : IsBatch x B s n X) :
    ∃ J : Fin B → Matrix (Fin k) (Fin n) ℝ,
      (∀ b, N.sem.smooth (N.w st) (X b) → HasFDerivAt (forwardMap N.mod st s) (linMap (J b)) (X b)) ∧
      (∀ v V, IsVec v B n V → ∃ t, Returns (N.mod.jvp x none v .input) st (some t) ∧ IsVec t B k (fun b => J b *ᵥ V b) ∧
        N.Loose (N.mod.jvp x none v .input st).2) ∧
      ∀ r v V, IsMat v B n r V → ∃ t, Returns (N.mod.jmp x none (some v) .input) st (some t) ∧ IsMat t B k r (fun b => J b * V b) ∧
        N.Loose (N.mod.jmp x none (some v) .input st).2 := by
  refine ⟨fun b => N.sem.J (N.w st) (X b), fun b hs => ?_, fun v V hv => h.jvpI hf hB hx hv, fun r v V hv => h.jmpI hf hB hx hv⟩
  rw [h.forwardMap_eq]
  exact (N.diff _ _ hs).input

/-- `jvp` and `jmp` with respect to the weights multiply by a matrix with one column per parameter entry and per place where the parameter
is used.  Moving the parameters in a direction `D` changes the output of `forward` by this matrix times `D` in weight
coordinates, in which the direction of a repeated parameter is repeated. -/
theorem C67_weight (hf : N.FwdI) (hf' : N.FwdW) (hp : 0 < p) (h : N.Loose st) (hB : 0 < B) (hx : IsBatch x B s n X) :
    ∃ J : Fin B → Matrix (Fin k) (Fin p) ℝ,
      (∀ b, N.sem.smooth (N.w st) (X b) → ∀ D,
        HasDerivAt (fun ε => forwardMap (k := k) N.mod (st.moved D ε) s (X b)) (J b *ᵥ N.w (st.direction D)) 0) ∧
      (∀ v V, IsVec v B p V → ∃ t, Returns (N.mod.jvp x none v .weight) st (some t) ∧ IsVec t B k (fun b => J b *ᵥ V b) ∧
        N.Loose (N.mod.jvp x none v .weight st).2) ∧
      ∀ r v V, IsMat v B p r V → ∃ t, Returns (N.mod.jmp x none (some v) .weight) st (some t) ∧ IsMat t B k r (fun b => J b * V b) ∧
        N.Loose (N.mod.jmp x none (some v) .weight st).2 :=
  ⟨fun b => N.sem.JW (N.w st) (X b), fun b hs D => h.deriv_moved D (X b) hs, fun _ _ hv => h.jvpW hf hf' hp hB hx hv,
    fun _ _ _ hv => h.jmpW hf hf' hp hB hx hv⟩

/-- So the directional derivative of a network with tied parameters, in a direction `D` of its parameters, is one call of `jvp`. -/
theorem C67_tied (hf : N.FwdI) (hf' : N.FwdW) (hp : 0 < p) (h : N.Loose st) (hB : 0 < B) (hx : IsBatch x B s n X)
    (hs : ∀ b, N.sem.smooth (N.w st) (X b)) (D : Nat → Nat → ℝ) {v : Tensor ℝ} (hv : IsVec v B p fun _ => N.w (st.direction D)) :
    ∃ t Y, Returns (N.mod.jvp x none v .weight) st (some t) ∧ IsVec t B k Y ∧
      ∀ b, HasDerivAt (fun ε => forwardMap (k := k) N.mod (st.moved D ε) s (X b)) (Y b) 0 := by
  obtain ⟨J, hd, hj, -⟩ := C67_weight hf hf' hp h hB hx
  obtain ⟨t, ht, hT, -⟩ := hj v _ hv
  exact ⟨t, _, ht, hT, fun b => hd b (hs b) D⟩

/-- Only the parameter values matter: in any two states that agree on them, `forward`, `jvp` and `jmp` return the same tensors. -/
theorem C67_state {st' : Store ℝ} (h : N.Loose st) (h' : N.Loose st') (e : st'.param = st.param) (hB : 0 < B) (hx : IsBatch x B s n X) :
    (∃ t t', Returns (N.mod.forward x) st t ∧ Returns (N.mod.forward x) st' t' ∧ ∃ Y, IsBatch t B s' k Y ∧ IsBatch t' B s' k Y) ∧
    (N.FwdI → ∀ v V, IsVec v B n V → ∃ t t', Returns (N.mod.jvp x none v .input) st (some t) ∧ Returns (N.mod.jvp x none v .input) st' (some t') ∧
      ∃ Y, IsVec t B k Y ∧ IsVec t' B k Y) ∧
    (N.FwdI → ∀ r v V, IsMat v B n r V → ∃ t t', Returns (N.mod.jmp x none (some v) .input) st (some t) ∧
      Returns (N.mod.jmp x none (some v) .input) st' (some t') ∧ ∃ Y, IsMat t B k r Y ∧ IsMat t' B k r Y) ∧
    (N.FwdI → N.FwdW → 0 < p → ∀ v V, IsVec v B p V → ∃ t t', Returns (N.mod.jvp x none v .weight) st (some t) ∧
      Returns (N.mod.jvp x none v .weight) st' (some t') ∧ ∃ Y, IsVec t B k Y ∧ IsVec t' B k Y) ∧
    (N.FwdI → N.FwdW → 0 < p → ∀ r v V, IsMat v B p r V → ∃ t t', Returns (N.mod.jmp x none (some v) .weight) st (some t) ∧
      Returns (N.mod.jmp x none (some v) .weight) st' (some t') ∧ ∃ Y, IsMat t B k r Y ∧ IsMat t' B k r Y) := by
  have ew : N.w st' = N.w st := by
    have := N.lgood.w_of e
    rwa [N.lmdl_eqs.2.2.1] at this
  refine ⟨?_, fun hf v V hv => ?_, fun hf r v V hv => ?_, fun hf hf' hp v V hv => ?_, fun hf hf' hp r v V hv => ?_⟩
  · obtain ⟨t, h1, h2, -⟩ := h.forward hB hx
    obtain ⟨t', h1', h2', -⟩ := h'.forward hB hx
    rw [ew] at h2'
    exact ⟨t, t', h1, h1', _, h2, h2'⟩
  · obtain ⟨t, h1, h2, -⟩ := h.jvpI hf hB hx hv
    obtain ⟨t', h1', h2', -⟩ := h'.jvpI hf hB hx hv
    rw [ew] at h2'
    exact ⟨t, t', h1, h1', _, h2, h2'⟩
  · obtain ⟨t, h1, h2, -⟩ := h.jmpI hf hB hx hv
    obtain ⟨t', h1', h2', -⟩ := h'.jmpI hf hB hx hv
    rw [ew] at h2'
    exact ⟨t, t', h1, h1', _, h2, h2'⟩
  · obtain ⟨t, h1, h2, -⟩ := h.jvpW hf hf' hp hB hx hv
    obtain ⟨t', h1', h2', -⟩ := h'.jvpW hf hf' hp hB hx hv
    rw [ew] at h2'
    exact ⟨t, t', h1, h1', _, h2, h2'⟩
  · obtain ⟨t, h1, h2, -⟩ := h.jmpW hf hf' hp hB hx hv
    obtain ⟨t', h1', h2', -⟩ := h'.jmpW hf hf' hp hB hx hv
    rw [ew] at h2'
    exact ⟨t, t', h1, h1', _, h2, h2'⟩

/-- All constructors together (each use of a container repeats its constructor call; layers have no state besides their parameters): whatever was
constructed before, constructing a network in which objects may repeat brings it into a state as required above. -/
theorem C67_build (hs : N.Shapes st) (ho : HooksOk st) : ∃ st', N.build st = (.ok N.mod, st') ∧ N.Loose st' := by
  obtain ⟨m, st', e, hm, hp, h⟩ := N.build_loose ho
  subst hm
  exact ⟨st', e, N.shapes_of (st := st) (fun i => by rw [hp]) hs, h⟩

/-! ### Example: `Sequential(L, R, L, R)` with one `L = Linear(1, 1, bias=False)` and one `R = ReLU()` -/

/-- the network expression: objects 1 and 2 occur twice, parameter 0 occurs twice -/
noncomputable def repNet : Net [1] 1 [1] 1 (0 + (1 * 1 + 0) + 0 + (1 * 1 + 0) + 0) :=
  .seq 0 (.snoc (.snoc (.snoc (.snoc (.nil [1] 1 rfl (by norm_num))
    (.linear 1 0 none 1 1 (by norm_num) (by norm_num)))
    (.act .relu 2 [1] 1 rfl (by norm_num)))
    (.linear 1 0 none 1 1 (by norm_num) (by norm_num)))
    (.act .relu 2 [1] 1 rfl (by norm_num)))

/-- the weight of `L` is 2 -/
noncomputable def repStart : Store ℝ := ⟨fun _ => ⟨[1, 1], fun _ => 2⟩, fun _ => none, fun _ => none, fun _ => []⟩

/-- the state after the construction -/
noncomputable def repStore : Store ℝ := (repNet.build repStart).2

theorem repNet_loose : repNet.Loose repStore := by
  obtain ⟨st', e, h⟩ := C67_build (N := repNet) (st := repStart) (by simp [repNet, Net.Shapes, Chain.Shapes, repStart]) fun i q hq => by
    simp [repStart] at hq
  rw [repStore, e]
  exact h

/-- it is not a properly constructed network in the sense of the other properties -/
example : ¬ repNet.Ok repStore := fun h => by
  have := h.nodup
  simp [repNet, Net.ids, Chain.ids] at this

theorem repStore_param : repStore.param = fun _ => ⟨[1, 1], fun _ => 2⟩ := by
  obtain ⟨m, st', e, hm, hp, h⟩ := repNet.build_loose (st := repStart) fun i q hq => by simp [repStart] at hq
  rw [repStore, e, hp]
  rfl

theorem repNet_smooth : repNet.sem.smooth (repNet.w repStore) fun _ => 1 := by
  have ew : repNet.w repStore = Fin.append (Fin.append (Fin.append (Fin.append (fun _ => 0) (linearW 0 none 1 1 repStore)) (fun _ => 0))
      (linearW 0 none 1 1 repStore)) (fun _ => 0) := by
    simp only [repNet, Net.w, Chain.w]; rfl
  rw [ew]
  simp [repNet, Net.sem, Chain.sem, Sem.comp, Sem.id, linearSem, Act.sem, Sem.leaf0, Sem.leaf, Act.smoothAt, Act.fn, linearF,
    wl, wr, linearW, repStore_param, Fin.append, Fin.addCases, Fin.sum_univ_succ, finProdFinEquiv, biasLen]

/-- `jvp(x, None, [1, 1], wrt="weight")` is the derivative of `w ↦ w * (w * 1)` at `w = 2`, although the backward passes of this object are wrong (C38). -/
example : ∃ t Y, Returns (repNet.mod.jvp ⟨[1, 1], fun _ => 1⟩ none ⟨[1, 2], fun _ => 1⟩ .weight) repStore (some t) ∧ IsVec t 1 1 Y ∧
    ∀ b, HasDerivAt (fun ε => forwardMap (n := 1) (k := 1) repNet.mod (repStore.moved (fun _ _ => 1) ε) [1] fun _ => 1) (Y b) 0 := by
  refine C67_tied (N := repNet) (B := 1) (X := fun _ _ => 1) ?_ ?_ (by norm_num) repNet_loose Nat.one_pos ⟨rfl, fun b i => rfl⟩ (fun _ => repNet_smooth)
    (fun _ _ => 1) ⟨rfl, fun b i => ?_⟩
  · simp [repNet, Net.FwdI, Chain.FwdI]
  · simp [repNet, Net.FwdW, Chain.FwdW]
  · have ew : repNet.w (repStore.direction fun _ _ => 1) = Fin.append (Fin.append (Fin.append (Fin.append (fun _ => 0)
        (linearW 0 none 1 1 (repStore.direction fun _ _ => 1))) (fun _ => 0)) (linearW 0 none 1 1 (repStore.direction fun _ _ => 1))) (fun _ => 0) := by
      simp only [repNet, Net.w, Chain.w]; rfl
    rw [ew]
    fin_cases i <;> simp [Tensor.get, Fin.append, Fin.addCases, linearW, Store.direction, biasLen, Fin.ext_iff]

end NNJ.Props
