import Verif.Proofs.EmptySeq
import Verif.Proofs.LeafLinear
import Verif.Spec.Example

/-!
# C68: batches without samples
-/

namespace NNJ.Props
open NNJ Tensor

variable {s s' : List Nat} {n k p : Nat} {N : Net s n s' k p} {st : Store ℝ} {x : Tensor ℝ}

/-- `forward` of a batch without samples returns a batch without samples, unless the network contains a Flatten, an L2Norm, or a Reshape with a
size left open; then it raises.  (Repeated layer objects and any hooks are allowed, see C67.) -/
theorem C68_forward (h : N.Loose st) (hx : x.shape = 0 :: s) :
    (¬ N.RejFwd → ∃ y, Returns (N.mod.forward x) st y ∧ y.shape = 0 :: s') ∧ (N.RejFwd → NoReturn (N.mod.forward x) st) := by
  have e := N.emOk
  rw [← e.F, ← e.m]
  have hx' : x.shape = 0 :: N.em.s := by rw [e.s]; exact hx
  have hs := (e.sh st).2 h.shapes
  refine ⟨fun hF => ?_, fun hF => ?_⟩
  · obtain ⟨y, st', hy⟩ := e.empt.fwdOk hF hs h.hooks hx'
    have := (e.empt.fwd hs h.hooks hx' hy).2.1
    rw [e.s'] at this
    exact ⟨y, congrArg Prod.fst hy, this⟩
  · exact Out.noReturn (Q := ¬ N.em.F) (fun y st' hy => ⟨(e.empt.fwd hs h.hooks hx' hy).1, (e.empt.fwd hs h.hooks hx' hy).2.2.1⟩) (not_not.2 hF)

/-- all methods with respect to the input, called without `val`, raise -/
def EveryRaise (m : Mod ℝ) (st : Store ℝ) (x : Tensor ℝ) : Prop :=
  NoReturn (m.jacobian x none .input) st ∧
  (∀ u, NoReturn (m.jvp x none u .input) st) ∧ (∀ u, NoReturn (m.jmp x none (some u) .input) st) ∧
  (∀ u, NoReturn (m.vjp x none u .input) st) ∧ (∀ u, NoReturn (m.mjp x none u .input) st) ∧
  (∀ u a b c, NoReturn (m.jTmjp x none u .input a b c) st) ∧ ∀ u a b c, NoReturn (m.jmjTp x none u .input a b c) st

theorem everyRaise_of (h : N.Loose st) (hx : x.shape = 0 :: s) (hN : N.em.N) : EveryRaise N.mod st x := by
  have e := N.emOk
  rw [← e.m]
  have hx' : x.shape = 0 :: N.em.s := by rw [e.s]; exact hx
  have hs := (e.sh st).2 h.shapes
  have hN' : ¬ ¬ N.em.N := not_not.2 hN
  have vo : N.em.VOk none st := fun v h => by cases h
  exact ⟨(e.empt.jacN hs h.hooks hx').noReturn hN', fun u => (e.empt.jvp hs h.hooks hx' vo).noReturn hN', fun u => (e.empt.jmp hs h.hooks hx' vo).noReturn hN',
    fun u => (e.empt.vjpN hs h.hooks hx').noReturn hN', fun u => (e.empt.mjpN hs h.hooks hx').noReturn hN', fun u a b c => (e.empt.jTmjpN hs h.hooks hx').noReturn hN',
    fun u a b c => (e.empt.jmjTpN hs h.hooks hx').noReturn hN'⟩

/-- If the network contains an activation, an L2Norm, or a SkipConnection, then on a batch without samples every method with respect to the input
raises, for every vector or matrix. -/
theorem C68_input (h : N.Loose st) (hx : x.shape = 0 :: s) (hr : N.RejIn) : EveryRaise N.mod st x :=
  everyRaise_of h hx (N.emOk.empt.mn (N.emOk.M.2 hr))

/-- So does every method of a Sequential whose `forward` raises. -/
theorem C68_seq {l id : Nat} {c : Chain s n s' k p (l + 1)} (h : (Net.seq id c).Loose st) (hx : x.shape = 0 :: s) (hr : c.RejFwd) :
    EveryRaise (Net.seq id c).mod st x := by
  refine everyRaise_of h hx ?_
  have := (Net.seq id c).emOk.F.2 (by simpa only [Net.RejFwd] using hr)
  simp only [Net.em] at this ⊢
  exact .inl this

/-- The value that `forward` has just returned may be passed along as `val` without changing this. -/
theorem C68_value (h : N.Loose st) (hx : x.shape = 0 :: s) (hr : N.RejIn) {v : Tensor ℝ} {st' : Store ℝ} (hf : N.mod.forward x st = (.ok v, st')) :
    (∀ u, NoReturn (N.mod.vjp x (some v) u .input) st') ∧ (∀ u, NoReturn (N.mod.mjp x (some v) u .input) st') ∧
    NoReturn (N.mod.jacobian x (some v) .input) st' ∧
    (∀ u a b c, NoReturn (N.mod.jTmjp x (some v) u .input a b c) st') ∧ ∀ u a b c, NoReturn (N.mod.jmjTp x (some v) u .input a b c) st' := by
  have e := N.emOk
  rw [← e.m] at hf ⊢
  have hx' : x.shape = 0 :: N.em.s := by rw [e.s]; exact hx
  have hs := (e.sh st).2 h.shapes
  obtain ⟨-, h2, -, h4⟩ := e.empt.fwd hs h.hooks hx' hf
  have hM : ¬ ¬ N.em.M := not_not.2 (e.M.2 hr)
  have vo : N.em.VOk (some v) st' := vok_some ⟨_, h2⟩ h4
  exact ⟨fun u => (e.empt.vjp ⟨_, hx⟩ vo).noReturn hM, fun u => (e.empt.mjp ⟨_, hx⟩ vo).noReturn hM, (e.empt.jac ⟨_, hx⟩ vo).noReturn hM,
    fun u a b c => (e.empt.jTmjp ⟨_, hx⟩ vo).noReturn hM, fun u a b c => (e.empt.jmjTp ⟨_, hx⟩ vo).noReturn hM⟩

/-- If the network contains a Linear layer or a SkipConnection, then the products of a vector or matrix with the Jacobian with respect to the
weights raise (`jvp` is not claimed). -/
theorem C68_weight (h : N.Loose st) (hx : x.shape = 0 :: s) (hr : N.RejW) :
    (∀ u, NoReturn (N.mod.vjp x none u .weight) st) ∧ (∀ u, NoReturn (N.mod.mjp x none (some u) .weight) st) ∧
    ∀ u, NoReturn (N.mod.jmp x none (some u) .weight) st := by
  have e := N.emOk
  rw [← e.m]
  have hx' : x.shape = 0 :: N.em.s := by rw [e.s]; exact hx
  have hs := (e.sh st).2 h.shapes
  have hW : ¬ ¬ N.em.W := not_not.2 (e.W.2 hr)
  exact ⟨fun u => (e.empt.vjpWN hs h.hooks hx').noReturn hW, fun u => (e.empt.mjpWN hs h.hooks hx').noReturn hW,
    fun u => (e.empt.jmpW hs h.hooks hx' fun v h => by cases h).noReturn hW⟩

/-- So does the Jacobian of a Sequential with respect to the weights … -/
theorem C68_seqWeight {l id : Nat} {c : Chain s n s' k p (l + 1)} (h : (Net.seq id c).Loose st) (hx : x.shape = 0 :: s) (hr : c.RejW) :
    NoReturn ((Net.seq id c).mod.jacobian x none .weight) st := by
  have e := c.emOk
  have hs := (e.sh st).2 (by simpa only [Net.Shapes] using h.shapes)
  have key := empt_seqMjpW (id := id) (val := none) (x := x) (st := st) (u := none) e.empt fun hr => empt_getValN e.empt e.linked hs h.hooks hx hr
  rw [e.m] at key
  simp only [Net.mod]
  exact key.noReturn (not_not.2 (e.W.2 hr))

/-- … although the Jacobians of a Linear layer itself are returned, with no samples. -/
theorem C68_linear {id wId i o : Nat} {bId : Option Nat} (hi : 0 < i) (ho : 0 < o) (h : (Net.linear id wId bId i o hi ho).Loose st) (hx : x.shape = [0, i]) :
    (∃ t, Returns ((Linear.mod id wId bId i o : Mod ℝ).jacobian x none .input) st (some t) ∧ t.shape = [0, o, i]) ∧
    ∃ t, Returns ((Linear.mod id wId bId i o : Mod ℝ).jacobian x none .weight) st (some t) ∧ t.shape = [0, o, o * i + biasLen bId o] := by
  have hs := h.shapes
  simp only [Net.Shapes] at hs
  have hb : IsBatch x 0 [i] i (fun b => b.elim0) := ⟨hx, fun b => b.elim0⟩
  have hv := isVec_iff_batch.2 hb
  obtain ⟨v, hv1, hv2⟩ := Linear.forward_ret (B := 0) (X := fun b => b.elim0) (bias := bId.map st.param) hs.1 ho (by simpa using hs.2) hb
  have hw : ∀ (a : Fin o) (j : Fin i), (st.param wId).get [↑a, ↑j] = (fun a j => (st.param wId).get [(a : Fin o).val, (j : Fin i).val]) a j := fun _ _ => rfl
  constructor
  · have : Ret (Linear.jacobian (st.param wId) (bId.map st.param) x none .input) (IsSome fun t => t.shape = [0, o, i]) :=
      Ret.sok (Linear.vec_dims2 hv) (expand_mat _ hs.1 hw fun r hr => hr.1)
    obtain ⟨_ | t, e, ht⟩ := this
    · exact ht.elim
    · exact ⟨t, e, ht⟩
  · have hv2' := isVec_iff_batch.2 hv2
    have : Ret (Linear.jacobian (st.param wId) (bId.map st.param) x none .weight) (IsSome fun t => t.shape = [0, o, o * i + biasLen bId o]) := by
      refine Ret.sok (Linear.vec_dims2 hv) (Ret.sok hv1 (Ret.sok (Linear.vec_dim1 hv2') (eye_ret.bind fun e he => ?_)))
      cases bId with
      | none => exact Linear.jac_core hv he.1 he.2 fun t ht => Ret.pure ht.1
      | some b =>
        refine Linear.jac_core hv he.1 he.2 fun t ht => unsqueeze_expand _ he.1 he.2 fun E hE => ?_
        exact (cat2_cols ht hE).some.mono fun _ h => IsSome.mono h fun _ h => h.1
    obtain ⟨_ | t, e, ht⟩ := this
    · exact ht.elim
    · exact ⟨t, e, ht⟩

/-! ### Examples -/

theorem exNet_loose : exNet.Loose exStore := by
  refine ⟨by simp [exNet, Net.Shapes, Chain.Shapes, exStore], fun i q hq => ?_⟩
  rcases i with _ | _ | _ | _ | _ | _ | _ | _ | _ | i <;> simp [exStore] at hq ⊢ <;> simp [hq]

/-- no samples of two features -/
noncomputable def noInput : Tensor ℝ := ⟨[0, 2], fun _ => 0⟩

/-- the network of `Spec/Example` evaluates … -/
example : ∃ y, Returns (exNet.mod.forward noInput) exStore y ∧ y.shape = [0, 1] :=
  (C68_forward exNet_loose rfl).1 (by simp [exNet, Net.RejFwd, Chain.RejFwd])

/-- … but has no Jacobian … -/
example : NoReturn (exNet.mod.jacobian noInput none .input) exStore :=
  (C68_input exNet_loose rfl (by simp [exNet, Net.RejIn, Chain.RejIn])).1

/-- … and no product with the weights. -/
example : ∀ u, NoReturn (exNet.mod.vjp noInput none u .weight) exStore :=
  (C68_weight exNet_loose rfl (by simp [exNet, Net.RejW, Chain.RejW])).1

example : NoReturn (exNet.mod.jacobian noInput none .weight) exStore :=
  C68_seqWeight (c := _) exNet_loose rfl (by simp [Net.RejW, Chain.RejW])

/-- `Sequential(Flatten())` on images -/
noncomputable def zflatNet : Net [2, 2] 4 [4] 4 (0 + 0) := .seq 0 (.snoc (.nil [2, 2] 4 rfl (by norm_num)) (.flatten 1 [2, 2] 4 rfl (by norm_num)))

/-- a state for it -/
noncomputable def zflatStore : Store ℝ := ⟨fun _ => ⟨[], fun _ => 0⟩, fun _ => some [], fun _ => none, fun i => if i = 1 then [0] else []⟩

theorem zflatNet_loose : zflatNet.Loose zflatStore := ⟨by simp [zflatNet, Net.Shapes, Chain.Shapes], fun i q _ => by simp [zflatStore]⟩

example : NoReturn (zflatNet.mod.forward ⟨[0, 2, 2], fun _ => 0⟩) zflatStore ∧ EveryRaise zflatNet.mod zflatStore ⟨[0, 2, 2], fun _ => 0⟩ :=
  ⟨(C68_forward zflatNet_loose rfl).2 (by simp [zflatNet, Net.RejFwd, Chain.RejFwd]), C68_seq (c := _) zflatNet_loose rfl (by simp [Net.RejFwd, Chain.RejFwd])⟩

/-- `Tanh` with the value of `forward` -/
example : NoReturn ((Net.act .tanh 0 [2] 2 rfl (by norm_num)).mod.jacobian noInput (some (noInput.map Real.tanh)) .input) exStore :=
  (C68_value (N := Net.act .tanh 0 [2] 2 rfl (by norm_num)) (x := noInput) (st := exStore) ⟨by simp [Net.Shapes], exNet_loose.hooks⟩ rfl (by simp [Net.RejIn])
    (v := noInput.map Real.tanh) (st' := exStore) (by simp only [Net.mod]; rfl)).2.2.1

example : ∃ t, Returns ((Linear.mod 1 0 (some 1) 2 3 : Mod ℝ).jacobian noInput none .weight) exStore (some t) ∧ t.shape = [0, 3, 9] :=
  (C68_linear (by norm_num) (by norm_num) (st := exStore) ⟨by simp [Net.Shapes, exStore], exNet_loose.hooks⟩ rfl).2

end NNJ.Props
