import Verif.Spec.Example
import Verif.Spec.NoneMatrix
import Verif.Proofs.NetFacts
import Verif.Proofs.NoneMatrix
import Verif.Proofs.NoneNet

/-!
# C12: `matrix=None` means the identity, and where it does not
-/

namespace NNJ.Props
open NNJ Matrix Tensor

variable {s s' : List Nat} {n k p : Nat} {N : Net s n s' k p} {st : Store ℝ}
variable {B : Nat} {X : Fin B → Fin n → ℝ} {x : Tensor ℝ}

/-- The identity metric of size `n` for `B` samples, written as a diagonal. -/
theorem ones_metric (B n : Nat) : MetricArg true (ones [B, n]) B n fun _ => (1 : Matrix (Fin n) (Fin n) ℝ) :=
  ⟨fun _ _ => 1, ⟨rfl, fun _ _ => rfl⟩, fun _ => diagonal_one.symm⟩

/-- `jTmjp(x, None, None, ...)` is the same call as `jTmjp(x, None, ones, ..., from_diag=True)`: same
result or exception, same state afterwards, for all flags except the combination
`diag_backprop=True, from_diag=False` (C39: AssertionError). -/
theorem C12_jTmjp_eq (h : N.Ok st) (hB : 0 < B) (hx : IsBatch x B s n X) {td : Bool} (hN : N.NoneIsIdentity td) (wrt : Wrt)
    (fd db : Bool) (hdb : db = true → fd = true) :
    N.mod.jTmjp x none none wrt fd td db st = N.mod.jTmjp x none (some (ones [B, k])) wrt true td db st := by
  obtain ⟨v, hv, hV⟩ := h.forward hB hx
  exact N.jTmjp_none hN hdb hB hx.1 hV.1 hv

/-- `jTmjp(x, None, None, wrt="input")` is `Jᵀ J`. -/
theorem C12_jTmjp_input (h : N.Ok st) (hB : 0 < B) (hx : IsBatch x B s n X) {toDiag : Bool} (hN : N.NoneIsIdentity toDiag) :
    ∃ jt J, Returns (N.mod.jacobian x none .input) st (some jt) ∧ IsMat jt B k n J ∧
      ∀ fromDiag, ∃ t, Returns (N.mod.jTmjp x none none .input fromDiag toDiag false) st (.tensor t) ∧
        MetricOut toDiag t B n fun b => (J b)ᵀ * J b := by
  obtain ⟨jt, hj, hJ⟩ := h.jacI hB hx
  refine ⟨jt, _, hj, hJ, fun fd => ?_⟩
  obtain ⟨t, ht, hT⟩ := h.jTI hB hx true toDiag (ones_metric B k)
  refine ⟨t, ?_, ?_⟩
  · rw [Returns, C12_jTmjp_eq h hB hx hN .input fd false (by simp)]; exact ht
  · simpa using hT

/-- `jTmjp(x, None, None, wrt="weight", to_diag=True)` is the diagonal of `Jwᵀ Jw`. -/
theorem C12_jTmjp_weight_diag (h : N.Ok st) (hB : 0 < B) (hx : IsBatch x B s n X) (hp : 0 < p) (hN : N.NoneIsIdentity true) :
    ∃ jt J, Returns (N.mod.jacobian x none .weight) st (some jt) ∧ IsMat jt B k p J ∧
      ∀ fromDiag, ∃ t, Returns (N.mod.jTmjp x none none .weight fromDiag true false) st (.tensor t) ∧
        IsVec t B p fun b => diag ((J b)ᵀ * J b) := by
  obtain ⟨jt, hj, hJ⟩ := h.jacW hB hx hp
  refine ⟨jt, _, hj, hJ, fun fd => ?_⟩
  obtain ⟨t, ht, hT⟩ := (h.jTWd hB hx true (ones_metric B k)).1 hp
  refine ⟨t, ?_, ?_⟩
  · rw [Returns, C12_jTmjp_eq h hB hx hN .weight fd false (by simp)]; exact ht
  · simpa using hT

/-- `jTmjp(x, None, None, wrt="weight", to_diag=False)` is the nested list of the per-layer diagonal blocks of
`Jwᵀ Jw`. -/
theorem C12_jTmjp_weight_blocks (h : N.Ok st) (hB : 0 < B) (hx : IsBatch x B s n X) (hp : 0 < p) (hN : N.NoneIsIdentity false) :
    ∃ jt J, Returns (N.mod.jacobian x none .weight) st (some jt) ∧ IsMat jt B k p J ∧
      ∀ fromDiag, ∃ v, Returns (N.mod.jTmjp x none none .weight fromDiag false false) st v ∧
        N.Blocks v B fun b => (J b)ᵀ * J b := by
  obtain ⟨jt, hj, hJ⟩ := h.jacW hB hx hp
  refine ⟨jt, _, hj, hJ, fun fd => ?_⟩
  obtain ⟨t, ht, hT⟩ := (h.jTWf hB hx true (ones_metric B k)).1 hp
  refine ⟨t, ?_, ?_⟩
  · rw [Returns, C12_jTmjp_eq h hB hx hN .weight fd false (by simp)]; exact ht
  · simpa using hT

/-- `mjp(x, val, None)` and `jmp(x, val, None)` are `jacobian(x, val)`, in every state, for every `val`
and `wrt`, except on Flatten, Reshape and L2Norm objects themselves (not networks containing them). -/
theorem C12_mjp_jmp (N : Net s n s' k p) (hN : ¬ N.NoneRaises) (x : Tensor ℝ) (val : Option (Tensor ℝ)) (wrt : Wrt) :
    N.mod.mjp x val none wrt = N.mod.jacobian x val wrt ∧ N.mod.jmp x val none wrt = N.mod.jacobian x val wrt :=
  ⟨N.mjp_none hN x val wrt, N.jmp_none hN x val wrt⟩

/-- `jmjTp(x, None, None, wrt="input")` is `J Jᵀ` on Linear, elementwise layers, Flatten, Reshape, and
Sequentials whose input is a batch of vectors. -/
theorem C12_jmjTp_input (hf : N.FwdI) (hN : N.NoneIsIdentityFwd) (h : N.Ok st) (hB : 0 < B) (hx : IsBatch x B s n X) :
    ∃ jt J, Returns (N.mod.jacobian x none .input) st (some jt) ∧ IsMat jt B k n J ∧
      ∀ fromDiag toDiag, ∃ t, Returns (N.mod.jmjTp x none .none .input fromDiag toDiag false) st (some t) ∧
        MetricOut toDiag t B k fun b => J b * (J b)ᵀ := by
  obtain ⟨jt, hj, hJ⟩ := h.jacI hB hx
  refine ⟨jt, _, hj, hJ, fun fd td => ?_⟩
  obtain ⟨t, ht, hT⟩ := h.jmjI hf hB hx true td (ones_metric B n)
  refine ⟨t, ?_, ?_⟩
  · rw [Returns, N.jmjTp_none_input hN (by simp) hx.1 hB]; exact ht
  · simpa using hT

/-- `jmjTp(x, None, None, wrt="weight")` is `Jw Jwᵀ`. -/
theorem C12_jmjTp_weight (hf : N.PushW) (h : N.Ok st) (hB : 0 < B) (hx : IsBatch x B s n X) (hp : 0 < p) :
    ∃ jt J, Returns (N.mod.jacobian x none .weight) st (some jt) ∧ IsMat jt B k p J ∧
      ∀ fromDiag toDiag, ∃ t, Returns (N.mod.jmjTp x none .none .weight fromDiag toDiag false) st (some t) ∧
        MetricOut toDiag t B k fun b => J b * (J b)ᵀ := by
  obtain ⟨jt, hj, hJ⟩ := h.jacW hB hx hp
  refine ⟨jt, _, hj, hJ, fun fd td => ?_⟩
  obtain ⟨t, ht, hT⟩ := h.jmjW hf hp hB hx true td (h.g.arg_of_metric (ones_metric B p))
  refine ⟨t, ?_, ?_⟩
  · rw [Returns, N.jmjTp_none_weight hp (by simp) hx.1 none hf]; exact ht
  · have h1 : N.sem.mask (1 : Matrix (Fin p) (Fin p) ℝ) = 1 := by
      have := h.g.mask_diag (fun _ => (1 : ℝ))
      rw [diagonal_one] at this
      rwa [Net.mdl_S] at this
    simpa [h1] using hT

/-! ### Where None raises -/

/-- Flatten and Reshape: `mjp(x, val, None)` and `jmp(x, val, None)` wrt input raise in every state. -/
theorem C12_flatten_raises (id : Nat) (dims : List Int) (x : Tensor ℝ) (val : Option (Tensor ℝ)) :
    ((Resh.flatten id : Mod ℝ).mjp x val none .input).Raises ∧ ((Resh.flatten id : Mod ℝ).jmp x val none .input).Raises ∧
      ((Resh.reshape dims id : Mod ℝ).mjp x val none .input).Raises ∧ ((Resh.reshape dims id : Mod ℝ).jmp x val none .input).Raises :=
  ⟨fun s => ⟨_, s, rfl⟩, fun s => ⟨_, s, rfl⟩, fun s => ⟨_, s, rfl⟩, fun s => ⟨_, s, rfl⟩⟩

/-- L2Norm: all four matrix products with None wrt input raise in every state. -/
theorem C12_l2norm_raises (eps : ℝ) (id : Nat) (x : Tensor ℝ) (val : Option (Tensor ℝ)) :
    ((L2Norm.mod eps id).mjp x val none .input).Raises ∧ ((L2Norm.mod eps id).jmp x val none .input).Raises ∧
      (∀ fd td db, ((L2Norm.mod eps id).jmjTp x val .none .input fd td db).Raises) ∧
      ∀ fd td db, ((L2Norm.mod eps id).jTmjp x val none .input fd td db).Raises := by
  have h := l2norm_jac_some eps x val
  refine ⟨raises_of_res fun _ => h.bind fun o ho => ?_, raises_of_res fun _ => h.bind fun o ho => ?_,
    fun fd td db => raises_of_res fun _ => RPost.bind (P := fun o => o = none) (RPost.ok rfl) fun o ho => ?_,
    fun fd td db => raises_of_res fun _ => RPost.bind (P := fun _ => False) ?_ fun _ h => h.elim⟩
  · cases o
    · exact absurd rfl ho
    · exact RPost.error
  · cases o
    · exact absurd rfl ho
    · exact RPost.error
  · subst ho
    cases db <;> refine h.bind fun o ho => ?_ <;> cases o <;> first | exact absurd rfl ho | exact RPost.error
  · cases db <;> refine h.bind fun o ho => ?_ <;> cases o <;> first | exact absurd rfl ho | exact RPost.error

/-- Conv2d: `jTmjp(x, val, None, to_diag=False)` raises in every state (`ones_like(val)` is not
flattened before `diag_embed`). -/
theorem C12_conv_raises (id wId : Nat) (bId : Option Nat) (g : ConvDims) (x : Tensor ℝ) (val : Option (Tensor ℝ)) (wrt : Wrt) (hw : wrt ≠ .other)
    (fd db : Bool) : ((Net.conv id wId bId g).mod.jTmjp x val none wrt fd false db).Raises :=
  raises_of_res fun _ => RPost.bind (P := fun _ => False) (conv_jTmjp_none_full _ _ _ _ _ _ hw fd db) fun _ h => h.elim

/-- SkipConnection: `jmjTp(x, val, None)` wrt input raises in every state. -/
theorem C12_skip_jmjTp_raises {a c l : Nat} {r : List Nat} (id fid : Nat) (ch : Chain (a :: r) n (c :: r) k p (l + 1)) (x : Tensor ℝ)
    (val : Option (Tensor ℝ)) (fd td db : Bool) : ((Net.skip id fid ch).mod.jmjTp x val .none .input fd td db).Raises :=
  skip_jmjTp_none _ _ _ _ _ _

/-- SkipConnection on samples with more than one dimension: `jTmjp(x, val, None)` wrt input never returns a
metric; whatever it returns has too many dimensions. -/
theorem C12_skip_jTmjp_spatial {a c l : Nat} {r : List Nat} (hr : r ≠ []) (id fid : Nat) (ch : Chain (a :: r) n (c :: r) k p (l + 1))
    (x : Tensor ℝ) {val : Tensor ℝ} (hv : val.shape = B :: (a + c) :: r) (fd td db : Bool) (st : Store ℝ) (v : PyVal ℝ)
    (h : Returns ((Net.skip id fid ch).mod.jTmjp x (some val) none .input fd td db) st v) :
    ∃ t, v = .tensor t ∧ ∀ T, ¬ MetricOut td t B n T := by
  obtain ⟨t, rfl, ht⟩ := skip_jTmjp_none_rank _ x val fd td db st v _ (Prod.ext h rfl)
  refine ⟨t, rfl, fun T hT => ?_⟩
  have h1 : 0 < r.length := List.length_pos_iff.2 hr
  rw [hv] at ht
  cases td with
  | true =>
    have := hT.1
    rw [this] at ht
    exact hr (by simpa using ht)
  | false =>
    have := hT.1
    rw [this] at ht
    simp at ht
    omega

/-- Sequential on samples with more than one dimension, elementwise first layer: `jmjTp(x, val, None)` wrt
input raises (`ones_like(x)` is not flattened). -/
theorem C12_seq_jmjTp_spatial (a : Act) (id aid : Nat) (hs : size s = n) (hn : 0 < n) (ms : List (Mod ℝ)) (hl : 2 ≤ s.length)
    (hx : x.shape = B :: s) (val : Option (Tensor ℝ)) (fd td db : Bool) :
    ((Sequential.mod id true ((Net.act a aid s n hs hn).mod :: ms)).jmjTp x val .none .input fd td db).Raises := by
  have hein : ∀ u : Tensor ℝ, RPost (einsum% "bi,bi->bi" [u, onesLike x]) fun _ => False := by
    intro u
    have : ranksOk [['b', 'i'], ['b', 'i']] [u, onesLike x] = false := by
      simp [ranksOk, onesLike, ones, full, hx]
      omega
    unfold einsum
    rw [this]
    exact RPost.error
  have hsand : ∀ (d : Tensor ℝ) (td : Bool), RPost (AbstractDiagonal.sandwich d (onesLike x) true td) fun _ => False := by
    intro d td
    cases td
    · exact RPost.bind (P := fun _ => False) (hein _) fun _ h => h.elim
    · exact RPost.map (P := fun _ => False) (hein _) fun _ h => h.elim
  have hact : ∀ (y v : Tensor ℝ) (td : Bool), Post ((Net.act a aid s n hs hn).mod.jmjTp y (some v) (.tensor (onesLike x)) .input true td db)
      fun _ => False := by
    intro y v td
    refine Post.of_res fun s => ?_
    refine RPost.bind (P := fun o => o = some (onesLike x)) (RPost.ok rfl) fun o ho => ?_
    subst ho
    have hj : ∃ f g, a.layer = Activation.layer f g := by cases a <;> exact ⟨_, _, rfl⟩
    obtain ⟨f, g, hl⟩ := hj
    show RPost (a.layer.jmjTp y (some v) (some (onesLike x)) .input true td db) _
    rw [hl]
    refine RPost.any fun _ => RPost.any fun w => ?_
    refine RPost.bind (P := fun o => o = (onesLike x, true)) (RPost.ok rfl) fun o ho => ?_
    subst ho
    refine RPost.bind (P := fun o => o ≠ none) (RPost.any fun _ => RPost.any fun _ => RPost.any fun _ => RPost.pure (by simp)) fun o ho => ?_
    cases o with
    | none => exact absurd rfl ho
    | some d => exact hsand _ _
  refine Post.raises <| Post.any fun _ => Post.any fun _ => ?_
  refine Post.bind (P := fun _ => False) ?_ fun _ h => h.elim
  refine Post.any fun y => Post.any fun v => Post.bind (P := fun _ => False) ?_ fun _ h => h.elim
  exact hact _ _ _

/-- `Sequential(Flatten())` -/
noncomputable def flattenNet : Net [2, 3] 6 [6] 6 (0 + 0) :=
  .seq 0 (.snoc (.nil [2, 3] 6 rfl (by norm_num)) (.flatten 1 [2, 3] 6 rfl (by norm_num)))

/-- a state holding it -/
noncomputable def flattenStore : Store ℝ where
  param _ := ⟨[], fun _ => 0⟩
  fmaps i := if i = 0 then some [] else none
  pidx _ := none
  hooks i := if i = 1 then [0] else []

theorem flattenNet_ok : flattenNet.Ok flattenStore where
  nodup := by decide
  wired := by simp [flattenNet, Net.Wired, Chain.Wired, Net.mod, flattenStore, PureLayer.toMod, Resh.flatten]

/-- With Flatten as the first layer `jmjTp(x, None, None)` wrt input returns a tensor of the shape of the input
instead of the diagonal, which has shape `[1, 6]`. -/
theorem C12_seq_jmjTp_flatten :
    ∃ t, Returns (flattenNet.mod.jmjTp (ofSample [2, 3] fun i : Fin 6 => (i : ℝ)) none .none .input true true false) flattenStore (some t) ∧
      t.shape = [1, 2, 3] := ⟨_, rfl, rfl⟩

/-! Non-trivial instances -/

example : exNet.NoneIsIdentity false ∧ exNet.NoneIsIdentityFwd ∧ ¬ exNet.NoneRaises := ⟨trivial, rfl, fun h => h⟩

/-- `Jᵀ J` on the example network -/
example : ∃ jt J, Returns (exNet.mod.jacobian exInput none .input) exStore (some jt) ∧ IsMat jt 2 1 2 J ∧
    ∀ fromDiag, ∃ t, Returns (exNet.mod.jTmjp exInput none none .input fromDiag false false) exStore (.tensor t) ∧
      MetricOut false t 2 2 fun b => (J b)ᵀ * J b :=
  C12_jTmjp_input exNet_ok two_pos exInput_isBatch trivial

/-- a convolutional network: blocks of `Jwᵀ Jw` -/
example : ∃ jt J, Returns (exImg.mod.jacobian exImgInput none .weight) exImgStore (some jt) ∧ IsMat jt 2 1 _ J ∧
    ∀ fromDiag, ∃ v, Returns (exImg.mod.jTmjp exImgInput none none .weight fromDiag false false) exImgStore v ∧
      exImg.Blocks v 2 fun b => (J b)ᵀ * J b :=
  C12_jTmjp_weight_blocks exImg_ok two_pos exImgInput_isBatch (by norm_num) trivial

/-- `Jw Jwᵀ` on the example network -/
example : ∃ jt J, Returns (exNet.mod.jacobian exInput none .weight) exStore (some jt) ∧ IsMat jt 2 1 21 J ∧
    ∀ fromDiag toDiag, ∃ t, Returns (exNet.mod.jmjTp exInput none .none .weight fromDiag toDiag false) exStore (some t) ∧
      MetricOut toDiag t 2 1 fun b => J b * (J b)ᵀ :=
  C12_jmjTp_weight (by simp [exNet, Net.PushW, Chain.PushW, Net.FwdI, Chain.FwdI]) exNet_ok two_pos exInput_isBatch (by norm_num)

end NNJ.Props
