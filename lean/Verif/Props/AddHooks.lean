import Verif.Props.Products
import Verif.Props.Jacobian
import Verif.Proofs.Unhooked

/-!
# C40: Sequential with `add_hooks=False`
-/

namespace NNJ.Props
open NNJ Matrix Tensor

variable {s s' : List Nat} {n k p l : Nat}

/-- Constructing `Sequential(*ms, add_hooks=False)` gives an object without the attribute `feature_maps`, and no hooks. -/
theorem C40_init (id : Nat) (ms : List (Mod ℝ)) {st : Store ℝ} (h : NoHookOf id st) :
    ∃ N st', Sequential.init id ms false st = (.ok N, st') ∧ Unhooked id st' ∧ st'.param = st.param :=
  ⟨_, _, rfl, (init_twin ms h).unhooked, rfl⟩

/-- Any sequence of forward-mode calls (`forward`, `jvp`, `jmp` with a matrix), with any arguments, gives the same results
and the same exceptions on `Sequential(*ms, add_hooks=False)` as on `Sequential(*ms)`. -/
theorem C40_forward_mode (id : Nat) (c : Chain s n s' k p l) (hid : id ∉ c.ids) {st : Store ℝ} (h : NoHookOf id st) :
    ∃ N N' st1 st2, Sequential.init id c.mods true st = (.ok N, st1) ∧ Sequential.init id c.mods false st = (.ok N', st2) ∧
      ∀ calls, (∀ a ∈ calls, a.2.2.ForwardMode) → results N calls st1 = results N' calls st2 :=
  ⟨_, _, _, _, rfl, rfl, fun calls hc => results_twin (c.insens hid) calls hc (init_twin c.mods h)⟩

/-- `jacobian`, `vjp`, `mjp`, `jTmjp`, `jmp(x, val, None)` and `jmjTp` wrt input never return on a non-empty Sequential without
hooks, whatever the arguments; and the state is as before, without hooks. -/
theorem C40_never_returns (id : Nat) (c : Chain s n s' k p (l + 1)) (hid : id ∉ c.ids) {st : Store ℝ} (h : Unhooked id st)
    (x : Tensor ℝ) (val : Option (Tensor ℝ)) (call : Call) (hc : call.NeedsMaps) :
    (∃ e, (call.run (Sequential.mod id false c.mods) x val st).1 = .error e) ∧
    Unhooked id (call.run (Sequential.mod id false c.mods) x val st).2 := by
  have hne : c.mods ≠ [] := by cases c; simp [Chain.mods]
  obtain ⟨h1, _, h3⟩ := fails_call (c.insens hid) hne h x val call hc
  exact ⟨h1, h3⟩

/-- The exception is AttributeError, unless an earlier step raises: when the arguments pass the assertions at the start of
the method, and `val` is given (with at least one dimension), or `forward(x)` returns such a value. -/
theorem C40_attribute_error (id : Nat) (c : Chain s n s' k p (l + 1)) (hid : id ∉ c.ids) {st : Store ℝ} (h : Unhooked id st)
    (x : Tensor ℝ) (val : Option (Tensor ℝ)) (call : Call) (hc : call.NeedsMaps) (ha : call.PassesAsserts) (v : Tensor ℝ)
    (hv : val = some v ∨ val = none ∧ Returns ((Sequential.mod id false c.mods).forward x) st v) (hs : v.shape ≠ []) :
    (call.run (Sequential.mod id false c.mods) x val st).1 = .error .attribute := by
  have hne : c.mods ≠ [] := by cases c; simp [Chain.mods]
  exact (fails_call (c.insens hid) hne h x val call hc).2.1 ha v hv hs

/-- forward-mode calls keep the state free of hooks, too -/
theorem C40_keeps (id : Nat) (c : Chain s n s' k p l) (hid : id ∉ c.ids) {st : Store ℝ} (h : Unhooked id st) (x : Tensor ℝ)
    (val : Option (Tensor ℝ)) (call : Call) (hc : call.ForwardMode) :
    Unhooked id (call.run (Sequential.mod id false c.mods) x val st).2 :=
  (sp_forwardMode (c.insens hid) x val call hc).unhooked h

/-- The forward-mode products without hooks are right: `forward` computes a map sample by sample, and `jvp` and `jmp` wrt input
multiply with its derivative (where every layer is differentiable).  The hypothesis says that the same layers with hooks make a
properly constructed network. -/
theorem C40_exact (id : Nat) (c : Chain s n s' k p (l + 1)) {st : Store ℝ} (hno : NoHookOf id st)
    (h : (Net.seq id c).Ok (Sequential.init id c.mods true st).2) :
    ∃ N st', Sequential.init id c.mods false st = (.ok N, st') ∧
      ∀ {B x X}, 0 < B → IsBatch x B s n X →
        (∃ t, Returns (N.forward x) st' t ∧ IsBatch t B s' k fun b => forwardMap N st' s (X b)) ∧
        (c.FwdI → ∃ J : Fin B → Matrix (Fin k) (Fin n) ℝ, (∀ b, c.sem.smooth (c.w st') (X b) → HasFDerivAt (forwardMap N st' s) (linMap (J b)) (X b)) ∧
          (∀ v V, IsVec v B n V → ∃ t, Returns (N.jvp x none v .input) st' (some t) ∧ IsVec t B k fun b => J b *ᵥ V b) ∧
          ∀ r A Z, IsMat A B n r Z → ∃ t, Returns (N.jmp x none (some A) .input) st' (some t) ∧ IsMat t B k r fun b => J b * Z b) := by
  have hid : id ∉ c.ids := by
    have := h.nodup
    simp only [Net.ids, List.nodup_cons] at this
    exact this.1
  have ht := init_twin c.mods hno
  have hm : (Net.seq id c).mod = Sequential.mod id true c.mods := by rw [Net.mod]
  have hfw : ∀ x, ((Net.seq id c).mod.forward x (Sequential.init id c.mods true st).2).1 =
      ((Sequential.mod id false c.mods).forward x (Sequential.init id c.mods false st).2).1 := fun x => by
    rw [hm]; exact (sp_forward_hooks (c.insens hid) x _ _ ht).1
  have hmap : forwardMap (n := n) (k := k) (Net.seq id c).mod (Sequential.init id c.mods true st).2 s =
      forwardMap (Sequential.mod id false c.mods) (Sequential.init id c.mods false st).2 s := by
    funext z i
    simp only [forwardMap, hfw]
  have hrun : Sequential.init id c.mods false st = (.ok (Sequential.mod id false c.mods), (Sequential.init id c.mods false st).2) := rfl
  generalize hst1 : (Sequential.init id c.mods true st).2 = st1 at *
  generalize hst2 : (Sequential.init id c.mods false st).2 = st2 at *
  refine ⟨_, _, hrun, fun {B x X} hB hx => ⟨?_, fun hf => ?_⟩⟩
  · obtain ⟨t, h1, h2⟩ := (C01_forward h).2 hB hx
    refine ⟨t, ?_, ?_⟩
    · rw [Returns, ← hfw]; exact h1
    · rw [hmap] at h2; exact h2
  · have hfI : (Net.seq id c).FwdI := by rw [Net.FwdI]; exact hf
    refine ⟨fun b => (Net.seq id c).sem.J ((Net.seq id c).w st1) (X b), fun b hb => ?_, fun v V hv => ?_, fun r A Z hA => ?_⟩
    · rw [← hmap, h.forwardMap_eq]
      refine ((Net.seq id c).diff _ _ ?_).input
      have hw := h.g.w_of ht.param.symm
      rw [Net.mdl_w, Net.w] at hw
      rw [Net.sem, ← hw]
      exact hb
    · obtain ⟨t, h1, h2⟩ := h.jvpI hfI hB hx hv
      refine ⟨t, ?_, h2⟩
      rw [Returns, hm] at h1
      exact (sp_jvp_hooks (c.insens hid) x none v .input _ _ ht).1.symm.trans h1
    · obtain ⟨t, h1, h2⟩ := h.jmpI hfI hB hx hA
      refine ⟨t, ?_, h2⟩
      rw [Returns, hm] at h1
      exact (sp_jmp_hooks (c.insens hid) x none A .input _ _ ht).1.symm.trans h1

/-! ### the hypotheses can be met: the layers of the example network -/

/-- `Linear(2, 3), Tanh(), SkipConnection(Linear(3, 2, bias=False), ReLU()), Sequential(Linear(5, 1))` -/
noncomputable def exChain : Chain [2] 2 [1] 1 (0 + (3 * 2 + 3) + 0 + (0 + (2 * 3 + 0) + 0) + (0 + (1 * 5 + 1))) 4 :=
  .snoc (.snoc (.snoc (.snoc (.nil [2] 2 rfl (by norm_num))
    (.linear 1 0 (some 1) 2 3 (by norm_num) (by norm_num)))
    (.act .tanh 2 [3] 3 rfl (by norm_num)))
    (.skip 3 4 (a := 3) (c := 2) (r := []) (.snoc (.snoc (.nil [3] 3 rfl (by norm_num))
      (.linear 5 2 none 3 2 (by norm_num) (by norm_num)))
      (.act .relu 6 [2] 2 rfl (by norm_num)))))
    (.seq 7 (.snoc (.nil [5] 5 rfl (by norm_num)) (.linear 8 3 (some 4) 5 1 (by norm_num) (by norm_num))))

theorem exNet_eq : exNet = .seq 0 exChain := rfl

/-- the state before the outer constructor: the layers are there, nothing knows of object 0 -/
noncomputable def exBefore : Store ℝ := { exStore with hooks := fun i => (exStore.hooks i).filter (· ≠ 0) }

theorem exBefore_noHook : NoHookOf 0 exBefore := fun j => by simp [exBefore]

theorem exChain_id : 0 ∉ exChain.ids := by simp [exChain, Chain.ids, Net.ids]

theorem exBefore_ok : (Net.seq 0 exChain).Ok (Sequential.init 0 exChain.mods true exBefore).2 := by
  refine ⟨by simp only [exChain, Net.ids, Chain.ids]; decide, ?_⟩
  simp [exChain, Chain.mods, Net.Wired, Chain.Wired, exStore, exBefore, Net.mod, Linear.mod, Activation.toMod, SkipConnection.mod, Sequential.mod,
    PureLayer.toMod, Sequential.init, Sequential.register, Prog.modify, Prog.bind_run]

example : ∃ N st', Sequential.init 0 exChain.mods false exBefore = (.ok N, st') ∧ ∃ t, Returns (N.forward exInput) st' t := by
  obtain ⟨N, st', h, h'⟩ := C40_exact 0 exChain exBefore_noHook exBefore_ok
  obtain ⟨t, ht, _⟩ := (h' two_pos exInput_isBatch).1
  exact ⟨N, st', h, t, ht⟩

example : ∃ N N' st1 st2, Sequential.init 0 exChain.mods true exBefore = (.ok N, st1) ∧ Sequential.init 0 exChain.mods false exBefore = (.ok N', st2) ∧
    ∀ calls, (∀ a ∈ calls, a.2.2.ForwardMode) → results N calls st1 = results N' calls st2 :=
  C40_forward_mode 0 exChain exChain_id exBefore_noHook

/-- `jacobian(x)` on the network without hooks -/
example : ∃ st', (Call.run (Sequential.mod 0 false exChain.mods) exInput none (.jacobian .input) st').1 = .error .attribute := by
  obtain ⟨N, st', h, h'⟩ := C40_exact 0 exChain exBefore_noHook exBefore_ok
  obtain ⟨t, ht, hT⟩ := (h' two_pos exInput_isBatch).1
  obtain ⟨N2, st2, h2, hu, _⟩ := C40_init 0 exChain.mods exBefore_noHook
  have e : (N, st') = (N2, st2) := by
    have := h.symm.trans h2
    simp only [Prod.mk.injEq, Except.ok.injEq] at this ⊢
    exact this
  cases e
  have hN : N = Sequential.mod 0 false exChain.mods := by
    have h3 : Sequential.init 0 exChain.mods false exBefore = (.ok (Sequential.mod 0 false exChain.mods), (Sequential.init 0 exChain.mods false exBefore).2) := rfl
    have := h.symm.trans h3
    simp only [Prod.mk.injEq, Except.ok.injEq] at this
    exact this.1
  subst hN
  exact ⟨st', C40_attribute_error 0 exChain exChain_id hu exInput none (.jacobian .input) trivial (.inl rfl) t (.inr ⟨rfl, ht⟩) (by rw [hT.1]; simp)⟩

end NNJ.Props
