import Verif.Proofs.NdLinear
import Verif.Proofs.DerivAct

/-!
# C66: Linear layers on samples with several axes

`nn.Linear` applies its matrix along the last axis of samples of any shape.  The methods of `nnj.Linear` are written for samples with one axis.
-/

namespace NNJ
namespace Props
open Tensor Matrix Prog Upsample

variable (id wId : Nat) (bId : Option Nat) {i o B : Nat} {t : List Nat} {st : Store ℝ} {x : Tensor ℝ}

private theorem bias_shape {wId : Nat} {bId : Option Nat} (hw : LinParams wId bId i o st) : ∀ b ∈ bId.map st.param, b.shape = [o] := by
  cases bId with
  | none => simp
  | some β => intro b hb; simp at hb; subst hb; exact hw.bias β rfl

/-- `forward` maps every row of a sample by the same affine map, so the Jacobian of a sample is block diagonal with the weight matrix in every block. -/
theorem C66_forward (hw : LinParams wId bId i o st) (ho : 0 < o) {X : Fin B → Fin (size t * i) → ℝ} (hx : IsBatch x B (t ++ [i]) (size t * i) X) :
    (∃ y Y, Returns ((Linear.mod id wId bId i o).forward x) st y ∧ IsBatch y B (t ++ [o]) (size t * o) Y ∧
      ∀ b (u : Fin (size t)) (k : Fin o), Y b (finProdFinEquiv (u, k)) = ∑ j : Fin i, linW wId i o st k j * X b (finProdFinEquiv (u, j)) +
        match bId with
        | some β => (st.param β).data k
        | none => 0) ∧
    ∀ z, HasFDerivAt (forwardMap (Linear.mod id wId bId i o) st (t ++ [i])) (linMap (copies (size t) (linW wId i o st))) z := by
  constructor
  · obtain ⟨y, hy, hY⟩ := Linear.nd_forward hw.weight ho (bias_shape hw) hx
    refine ⟨y, _, hy, hY, fun b u k => ?_⟩
    simp only [Equiv.symm_apply_apply, linW]
    cases bId <;> rfl
  · intro z
    have e : forwardMap (Linear.mod id wId bId i o) st (t ++ [i]) = fun (z : Fin (size t * i) → ℝ) =>
        linMap (copies (size t) (linW wId i o st)) z + fun a : Fin (size t * o) =>
          match bId.map st.param with | some y => y.data (finProdFinEquiv.symm a).2 | none => 0 := by
      funext z a
      obtain ⟨y, hy, hY⟩ := Linear.nd_forward hw.weight ho (bias_shape hw) (ofSample_isBatch (s := t ++ [i]) z)
      have hy' : ((Linear.mod id wId bId i o).forward (ofSample (t ++ [i]) z) st).1 = .ok y := hy
      simp only [forwardMap, hy']
      have := hY.2 0 a
      simp only [Fin.val_zero, Nat.zero_mul, Nat.zero_add] at this
      rw [this, Pi.add_apply]
      refine congrArg₂ (· + ·) ?_ (by cases bId <;> rfl)
      rw [linMap_apply, mulVec, dotProduct, sum_pr, Finset.sum_eq_single (finProdFinEquiv.symm a).1]
      · refine Finset.sum_congr rfl fun j _ => ?_
        simp only [copies, Equiv.symm_apply_apply, if_true, linW]
      · intro u _ hu
        refine Finset.sum_eq_zero fun j _ => ?_
        simp only [copies, Equiv.symm_apply_apply]
        rw [if_neg (Ne.symm hu), zero_mul]
      · simp
    rw [e]
    exact ((linMap (copies (size t) (linW wId i o st))).hasFDerivAt (x := z)).add_const _

/-- On samples with several axes, `jacobian` raises, every product with respect to the weights raises, and so does every method that is called without a matrix -
whatever the other arguments. -/
theorem C66_raises (hw : LinParams wId bId i o st) (hx : x.shape = B :: (t ++ [i])) (ht : t ≠ []) (val : Option (Tensor ℝ)) :
    (∀ wrt, Rejects ((Linear.mod id wId bId i o).jacobian x val wrt) st) ∧
    (∀ v, Rejects ((Linear.mod id wId bId i o).jvp x val v .weight) st) ∧
    (∀ M, Rejects ((Linear.mod id wId bId i o).jmp x val M .weight) st) ∧
    (∀ M fd td db, Rejects ((Linear.mod id wId bId i o).jmjTp x val M .weight fd td db) st) ∧
    (∀ v, Rejects ((Linear.mod id wId bId i o).vjp x val v .weight) st) ∧
    (∀ M, Rejects ((Linear.mod id wId bId i o).mjp x val M .weight) st) ∧
    (∀ M fd td db, Rejects ((Linear.mod id wId bId i o).jTmjp x val M .weight fd td db) st) ∧
    (Rejects ((Linear.mod id wId bId i o).jmp x val none .input) st) ∧
    (∀ fd td db, Rejects ((Linear.mod id wId bId i o).jmjTp x val .none .input fd td db) st) ∧
    (Rejects ((Linear.mod id wId bId i o).mjp x val none .input) st) ∧
    (∀ fd td db, (∀ y ∈ val, y.shape = B :: (t ++ [o])) → Rejects ((Linear.mod id wId bId i o).jTmjp x val none .input fd td db) st) := by
  have h1 := Linear.nd_dims2 hx ht
  have h2 := Linear.nd_length hx ht
  let W := st.param wId
  let bias := bId.map st.param
  let nP := (Linear.mod id wId bId i o : Mod ℝ).nParams
  refine ⟨fun wrt => ⟨_, Linear.nd_jacobian (W := W) (bias := bias) h1 val wrt⟩, fun v => ⟨_, Linear.nd_jvp (W := W) (bias := bias) h1 val nP v⟩,
    fun M => ⟨_, Linear.nd_jmp (W := W) (bias := bias) h1 val nP M⟩, fun M fd td db => ?_,
    fun v => ⟨_, Linear.nd_vjp (W := W) (bias := bias) h1 val v⟩, fun M => ⟨_, Linear.nd_mjp (W := W) (bias := bias) h1 val M⟩, fun M fd td db => ?_,
    ⟨_, Linear.nd_jacobian (W := W) (bias := bias) h1 val .input⟩, fun fd td db => Linear.nd_jmjTp_none (W := W) (bias := bias) h2 val nP fd td db,
    ⟨_, Linear.nd_jacobian (W := W) (bias := bias) h1 val .input⟩, fun fd td db hv => ?_⟩
  · exact Fails.right M.toOption fun M => Linear.nd_jmjTp (W := W) (bias := bias) h1 h2 val nP M fd td db
  · exact (Linear.nd_jTmjp (W := W) (bias := bias) h1 h2 val M fd td db).left
  · refine Fails.left (Linear.nd_jTmjp_none (W := W) (bias := bias) (fun y hy => ?_) fd td db)
    cases val with
    | some v =>
      cases hy
      rw [hv y rfl]
      have := List.length_pos_of_ne_nil ht
      simp; omega
    | none =>
      have hl : (B :: (t ++ [i])).getLast? = some i := by rw [← List.cons_append, List.getLast?_concat]
      have hy : Torch.linear x (st.param wId) (bId.map st.param) = .ok y := hy
      have : y.shape.length = x.shape.length := by
        simp only [Torch.linear, hx, hl, hw.weight, if_true] at hy
        split at hy
        · cases hy; simp [hx]
        · split at hy
          · cases hy; simp [hx]
          · cases hy
      omega

private theorem sq1 {B n m : Nat} {s : List Nat} (e : m = n) {X : Fin B → Fin n → ℝ} (hx : IsBatch x B s n X) :
    IsBatch x B s m fun b a => X b (Fin.cast e a) := by
  subst e; exact hx

/-- If all axes but the last have size 1, the products with respect to the input are exact when the vector or matrix is given. -/
theorem C66_one (hw : LinParams wId bId i o st) (ho : 0 < o) (h1 : size t = 1) {X : Fin B → Fin i → ℝ} (hx : IsBatch x B (t ++ [i]) i X) :
    (∀ z : Fin i → ℝ, HasFDerivAt (forwardMap (Linear.mod id wId bId i o) st (t ++ [i])) (linMap (linW wId i o st)) z) ∧
    (∀ v V, IsVec v B i V → ∃ y, Returns ((Linear.mod id wId bId i o).jvp x none v .input) st (some y) ∧ IsVec y B o fun b => linW wId i o st *ᵥ V b) ∧
    (∀ M r Z, IsMat M B i r Z → ∃ y, Returns ((Linear.mod id wId bId i o).jmp x none (some M) .input) st (some y) ∧ IsMat y B o r fun b => linW wId i o st * Z b) ∧
    (∀ M Z fd td, MetricArg fd M B i Z → ∃ y, Returns ((Linear.mod id wId bId i o).jmjTp x none (.tensor M) .input fd td false) st (some y) ∧
      MetricOut td y B o fun b => linW wId i o st * Z b * (linW wId i o st)ᵀ) ∧
    (∀ v V, IsVec v B o V → ∃ y, Returns ((Linear.mod id wId bId i o).vjp x none v .input) st (some y) ∧ IsVec y B i fun b => V b ᵥ* linW wId i o st) ∧
    (∀ M r Z, IsMat M B r o Z → ∃ y, Returns ((Linear.mod id wId bId i o).mjp x none (some M) .input) st (some y) ∧ IsMat y B r i fun b => Z b * linW wId i o st) ∧
    (∀ M Z fd td, MetricArg fd M B o Z → ∃ y, Returns ((Linear.mod id wId bId i o).jTmjp x none (some M) .input fd td false) st (.tensor y) ∧
      MetricOut td y B i fun b => (linW wId i o st)ᵀ * Z b * linW wId i o st) := by
  have h2 : ∀ (a : Fin o) (j : Fin i), (st.param wId).get [↑a, ↑j] = linW wId i o st a j := fun a j => get2 hw.weight
  have ei : size t * i = i := by rw [h1, Nat.one_mul]
  have eo : size t * o = o := by rw [h1, Nat.one_mul]
  obtain ⟨val, hval, -⟩ := Linear.nd_forward hw.weight ho (bias_shape hw) (sq1 ei hx)
  have hval : Linear.getVal (st.param wId) (bId.map st.param) x none = .ok val := hval
  refine ⟨fun z => ?_, fun v V hv => ?_, fun M r Z hM => ?_, fun M Z fd td hM => ?_, fun v V hv => ?_, fun M r Z hM => ?_,
    fun M Z fd td hM => ?_⟩
  · have e : forwardMap (Linear.mod id wId bId i o) st (t ++ [i]) = fun (z : Fin i → ℝ) => linMap (linW wId i o st) z + fun k : Fin o =>
          match bId.map st.param with | some y => y.data k | none => 0 := by
      funext z k
      obtain ⟨y, hy, hY⟩ := Linear.nd_forward hw.weight ho (bias_shape hw) (sq1 ei (ofSample_isBatch (s := t ++ [i]) z))
      have hy' : ((Linear.mod id wId bId i o).forward (ofSample (t ++ [i]) z) st).1 = .ok y := hy
      simp only [forwardMap, hy']
      have hu : ∀ u : Fin (size t), (u : Nat) = 0 := fun u => by have := u.2; omega
      have h0 : (finProdFinEquiv.symm (Fin.cast eo.symm k)).2 = k := by
        have : (finProdFinEquiv (finProdFinEquiv.symm (Fin.cast eo.symm k)) : Nat) = k := by rw [Equiv.apply_symm_apply]; rfl
        rw [← Prod.mk.eta (p := finProdFinEquiv.symm (Fin.cast eo.symm k)), finProdFinEquiv_apply_val] at this
        simp only [hu, Nat.mul_zero, Nat.add_zero] at this
        exact Fin.ext this
      have := hY.2 0 (Fin.cast eo.symm k)
      simp only [Fin.val_zero, Nat.zero_mul, Nat.zero_add, Fin.val_cast, h0] at this
      rw [this, Pi.add_apply]
      refine congrArg₂ (· + ·) ?_ (by cases bId <;> rfl)
      rw [linMap_apply, mulVec, dotProduct]
      refine Finset.sum_congr rfl fun j _ => congrArg _ (congrArg z (Fin.ext ?_))
      rw [Fin.val_cast, finProdFinEquiv_apply_val, hu, Nat.mul_zero, Nat.add_zero]
    rw [e]
    exact ((linMap (linW wId i o st)).hasFDerivAt (x := z)).add_const _
  · obtain ⟨y, hy, h⟩ := ein_kj_bj hw.weight h2 hv
    exact ⟨y, congrArg (some <$> ·) hy, h⟩
  · obtain ⟨y, hy, h⟩ := ein_kj_bji hw.weight h2 hM
    exact ⟨y, congrArg (some <$> ·) hy, h⟩
  · obtain ⟨y, hy, h⟩ := Linear.jmjI_core (nP := (Linear.mod id wId bId i o : Mod ℝ).nParams) hw.weight h2 fd td hM hval
    cases y with
    | none => exact h.elim
    | some z => exact ⟨z, hy, h⟩
  · obtain ⟨y, hy, h⟩ := ein_bj_jk hw.weight h2 hv
    exact ⟨y, congrArg (some <$> ·) hy, h⟩
  · obtain ⟨y, hy, h⟩ := ein_bij_jk hw.weight h2 hM
    exact ⟨y, congrArg (some <$> ·) hy, h⟩
  · obtain ⟨y, hy, h⟩ := Linear.jTI_core hw.weight h2 fd td hM hval
    cases y with
    | none => exact h.elim
    | some z => exact ⟨z, congrArg (fun r : Res (Option (Tensor ℝ)) => r >>= fun r => pure (PyVal.ofOption r)) hy, h⟩

/-- Otherwise, with arguments that have one entry for each input or output of a sample, the products with respect to the input never have the right shape: they
raise unless the contracted side of the layer has width one, and then the result has the shape of a single row of the sample. -/
theorem C66_many (hw : LinParams wId bId i o st) (hi : 0 < i) (ho : 0 < o) (hT : 2 ≤ size t) (val : Option (Tensor ℝ)) :
    (∀ v, v.shape = [B, size t * i] → (i ≠ 1 → Rejects ((Linear.mod id wId bId i o).jvp x val v .input) st) ∧
      ∀ y, Returns ((Linear.mod id wId bId i o).jvp x val v .input) st (some y) → y.shape = [B, o] ∧ y.shape ≠ [B, size t * o]) ∧
    (∀ M r, M.shape = [B, size t * i, r] → (i ≠ 1 → Rejects ((Linear.mod id wId bId i o).jmp x val (some M) .input) st) ∧
      ∀ y, Returns ((Linear.mod id wId bId i o).jmp x val (some M) .input) st (some y) → y.shape = [B, o, r] ∧ y.shape ≠ [B, size t * o, r]) ∧
    (∀ M fd td db, M.shape = (if fd then [B, size t * i] else [B, size t * i, size t * i]) →
      (i ≠ 1 → Rejects ((Linear.mod id wId bId i o).jmjTp x val (.tensor M) .input fd td db) st) ∧
      ∀ y, Returns ((Linear.mod id wId bId i o).jmjTp x val (.tensor M) .input fd td db) st (some y) →
        y.shape = (if td then [B, o] else [B, o, o]) ∧ y.shape ≠ if td then [B, size t * o] else [B, size t * o, size t * o]) ∧
    (∀ v, v.shape = [B, size t * o] → (o ≠ 1 → Rejects ((Linear.mod id wId bId i o).vjp x val v .input) st) ∧
      ∀ y, Returns ((Linear.mod id wId bId i o).vjp x val v .input) st (some y) → y.shape = [B, i] ∧ y.shape ≠ [B, size t * i]) ∧
    (∀ M r, M.shape = [B, r, size t * o] → (o ≠ 1 → Rejects ((Linear.mod id wId bId i o).mjp x val (some M) .input) st) ∧
      ∀ y, Returns ((Linear.mod id wId bId i o).mjp x val (some M) .input) st (some y) → y.shape = [B, r, i] ∧ y.shape ≠ [B, r, size t * i]) ∧
    (∀ M fd td db, M.shape = (if fd then [B, size t * o] else [B, size t * o, size t * o]) →
      (o ≠ 1 → Rejects ((Linear.mod id wId bId i o).jTmjp x val (some M) .input fd td db) st) ∧
      ∀ y, Returns ((Linear.mod id wId bId i o).jTmjp x val (some M) .input fd td db) st (.tensor y) →
        y.shape = (if td then [B, i] else [B, i, i]) ∧ y.shape ≠ if td then [B, size t * i] else [B, size t * i, size t * i]) := by
  have ni := Linear.mul_ne_self' hT hi
  have no := Linear.mul_ne_self' hT ho
  have key : ∀ {w : Nat} {r : Res (Tensor ℝ)} {q q' : List Nat}, Linear.Misfit w r q → q ≠ q' →
      (w ≠ 1 → Fails (some <$> r)) ∧ ∀ y, (some <$> r : Res _) = .ok (some y) → y.shape = q ∧ y.shape ≠ q' := by
    intro w r q q' h hq
    refine ⟨fun hw => Fails.map ⟨_, h.2 hw⟩, fun y hy => ?_⟩
    cases r with
    | error e => cases hy
    | ok z =>
      cases hy
      exact ⟨h.1 _ rfl, by rw [h.1 _ rfl]; exact hq⟩
  have skip : ∀ (g : Res (Tensor ℝ)) {w : Nat} {r : Res (Option (Tensor ℝ))} {q q' : List Nat},
      ((w ≠ 1 → Fails r) ∧ ∀ y, r = .ok (some y) → y.shape = q ∧ y.shape ≠ q') →
      (w ≠ 1 → Fails (g >>= fun _ => r)) ∧ ∀ y, (g >>= fun _ => r) = .ok (some y) → y.shape = q ∧ y.shape ≠ q' := by
    intro g w r q q' h
    refine ⟨fun hw => Fails.right _ fun _ => h.1 hw, fun y hy => ?_⟩
    cases g with
    | error e => cases hy
    | ok z => exact h.2 y hy
  refine ⟨fun v hv => ?_, fun M r hM => ?_, fun M fd td db hM => ?_, fun v hv => ?_, fun M r hM => ?_, fun M fd td db hM => ?_⟩
  · exact key (Linear.misfit_jvp hw.weight hv hi hT) (by simpa using no.symm)
  · exact key (Linear.misfit_jmp hw.weight hM hi hT) (by simpa using no.symm)
  · have h := key (Linear.misfit_jmj hw.weight fd td hM hi hT) (q' := if td then [B, size t * o] else [B, size t * o, size t * o]) (by
      cases td <;> simpa using no.symm)
    have e : ((Linear.mod id wId bId i o).jmjTp x val (.tensor M) .input fd td db st).1 =
        (Linear.getVal (st.param wId) (bId.map st.param) x val >>= fun _ => some <$> (match (generalizing := false) fd, td with
          | false, false => einsum% "mn,bnj,kj->bmk" [st.param wId, M, st.param wId]
          | true, false => einsum% "mn,bn,kn->bmk" [st.param wId, M, st.param wId]
          | false, true => einsum% "mn,bnj,mj->bm" [st.param wId, M, st.param wId]
          | true, true => einsum% "mn,bn,mn->bm" [st.param wId, M, st.param wId])) := by
      cases fd <;> cases td <;> rfl
    simp only [Rejects, Returns]
    rw [e]
    exact skip _ h
  · exact key (Linear.misfit_vjp hw.weight hv ho hT) (by simpa using ni.symm)
  · exact key (Linear.misfit_mjp hw.weight hM ho hT) (by simpa using ni.symm)
  · have h := key (Linear.misfit_jTmj hw.weight fd td hM ho hT) (q' := if td then [B, size t * i] else [B, size t * i, size t * i]) (by
      cases td <;> simpa using ni.symm)
    have e : ((Linear.mod id wId bId i o).jTmjp x val (some M) .input fd td db st).1 =
        ((Linear.getVal (st.param wId) (bId.map st.param) x val >>= fun _ => some <$> (match (generalizing := false) fd, td with
          | false, false => einsum% "nm,bnj,jk->bmk" [st.param wId, M, st.param wId]
          | true, false => einsum% "nm,bn,nk->bmk" [st.param wId, M, st.param wId]
          | false, true => einsum% "nm,bnj,jm->bm" [st.param wId, M, st.param wId]
          | true, true => einsum% "nm,bn,nm->bm" [st.param wId, M, st.param wId])) >>= fun r => pure (PyVal.ofOption r)) := by
      cases fd <;> cases td <;> rfl
    simp only [Rejects, Returns]
    rw [e]
    have h := skip (Linear.getVal (st.param wId) (bId.map st.param) x val) h
    have last : ∀ {g : Res (Option (Tensor ℝ))} {q q' : List Nat}, ((o ≠ 1 → Fails g) ∧ ∀ y, g = .ok (some y) → y.shape = q ∧ y.shape ≠ q') →
        (o ≠ 1 → Fails (g >>= fun r => pure (PyVal.ofOption r))) ∧
        ∀ y, (g >>= fun r => pure (PyVal.ofOption r)) = .ok (.tensor y) → y.shape = q ∧ y.shape ≠ q' := by
      intro g q q' h
      refine ⟨fun hw => (h.1 hw).left, fun y hy => h.2 y ?_⟩
      match g, hy with
      | .ok (some z), hy => cases hy; rfl
    exact last h

/-! ### a layer with three outputs and two inputs, and one with a single input and output -/

private noncomputable def ndStore : Store ℝ where
  param j := if j = 0 then ⟨[3, 2], fun k => k⟩ else if j = 1 then ⟨[3], fun k => k⟩ else ⟨[1, 1], fun _ => 2⟩
  fmaps _ := none
  pidx _ := none
  hooks _ := []

private theorem ndParams : LinParams 0 (some 1) 2 3 ndStore := ⟨rfl, fun b hb => by cases hb; rfl⟩
private theorem ndParams1 : LinParams 2 none 1 1 ndStore := ⟨rfl, fun b hb => by cases hb⟩

/-- two samples with four rows of two entries -/
private noncomputable def ndInput : Tensor ℝ := ⟨[2, 4, 2], fun k => k⟩

/-- C66_forward, C66_raises: the layer maps the four rows of each sample, and has no Jacobian -/
example : (∃ y, Returns ((Linear.mod 0 0 (some 1) 2 3).forward ndInput) ndStore y ∧ y.shape = [2, 4, 3]) ∧
    Rejects ((Linear.mod 0 0 (some 1) 2 3).jacobian ndInput none .input) ndStore := by
  obtain ⟨⟨y, Y, hy, hY, -⟩, -⟩ := C66_forward (t := [4]) (B := 2) 0 0 (some 1) ndParams (by norm_num) (x := ndInput)
    (X := fun b k => ndInput.data (b * 8 + k)) ⟨rfl, fun b k => rfl⟩
  exact ⟨⟨y, hy, hY.1⟩, (C66_raises (t := [4]) (B := 2) 0 0 (some 1) ndParams (x := ndInput) rfl (by simp) none).1 .input⟩

/-- C66_one: with a single row the product is exact -/
example : ∃ y, Returns ((Linear.mod 0 0 (some 1) 2 3).jvp ⟨[2, 1, 2], fun k => k⟩ none ⟨[2, 2], fun k => k⟩ .input) ndStore (some y) ∧ y.get [0, 2] = 5 := by
  obtain ⟨y, hy, hY⟩ := (C66_one (t := [1]) (B := 2) 0 0 (some 1) ndParams (by norm_num) rfl (x := ⟨[2, 1, 2], fun k => k⟩)
    (X := fun b k => ((b * 2 + k : Nat) : ℝ)) ⟨rfl, fun b k => rfl⟩).2.1 ⟨[2, 2], fun k => k⟩ (fun b k => ((b * 2 + k : Nat) : ℝ)) ⟨rfl, fun b k => by
      simp [Tensor.get, ravel, size]⟩
  refine ⟨y, hy, (hY.2 0 2).trans ?_⟩
  simp [mulVec, dotProduct, linW, ndStore]
  norm_num

/-- C66_many: with four rows it raises -/
example : Rejects ((Linear.mod 0 0 (some 1) 2 3).jvp ndInput none ⟨[2, 8], fun _ => 1⟩ .input) ndStore :=
  ((C66_many (t := [4]) (B := 2) 0 0 (some 1) ndParams (by norm_num) (by norm_num) (by decide) none).1 _ rfl).1 (by norm_num)

/-- C66_many: with a single input per row it returns a tensor with one entry for the sample, although the output has four -/
example : ∃ y, Returns ((Linear.mod 0 2 none 1 1).jvp ⟨[1, 4, 1], fun _ => 0⟩ none ⟨[1, 4], fun _ => 1⟩ .input) ndStore (some y) ∧ y.shape = [1, 1] ∧
    y.get [0, 0] = 8 := by
  refine ⟨_, rfl, rfl, ?_⟩
  simp [Tensor.get, ravel, size, ofFn, sumLabels, labelDim, labelPairs, contracted, sumRange, prodList, operandsProd, operandIdx, envGet, ndStore, unravel]
  norm_num

end Props
end NNJ
