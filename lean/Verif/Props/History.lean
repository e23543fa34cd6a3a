import Verif.Proofs.Calls
import Verif.Spec.Example

/-!
# C17, C18, C19: the caches and the history of calls
-/

namespace NNJ
namespace Props
open Matrix

variable {s s' : List Nat} {n k p : Nat} {N : Net s n s' k p} {st : Store ℝ}
variable {B : Nat} {X : Fin B → Fin n → ℝ} {x : Tensor ℝ}

/-- C17: no history of uses (of the network, of its submodules, of other networks; with arbitrary
arguments, also failing ones; including `set_weight`) breaks the network: it is properly wired
afterwards, so that all theorems about properly wired networks apply to its state then. -/
theorem C17_ok (h : N.Ok st) (hist : List (AnyNet × Event)) : N.Ok (runHistory hist st) :=
  h.keeps (runHistory_keeps hist st)

theorem w_congr {st st' : Store ℝ} (h : N.Ok st) (h' : N.Ok st') (hw : ∀ i ∈ N.paramIds, TEq (st'.param i) (st.param i)) : N.w st' = N.w st := by
  funext i
  rw [h.wAt, h'.wAt]
  exact (flat_congr hw).2 i (by rw [h.len]; exact i.2)

/-- C17: a call with `val=None`, after any history, succeeds and returns the same as in any other state
`st0` (for example a freshly constructed one) in which the network has the same parameter values. -/
theorem C17_history (h : N.Ok st) (hist : List (AnyNet × Event)) (hB : 0 < B) (hx : IsBatch x B s n X) (c : Call) (hc : c.Valid N B)
    {st0 : Store ℝ} (h0 : N.Ok st0) (hw : ∀ i ∈ N.paramIds, TEq (st0.param i) ((runHistory hist st).param i)) :
    ∃ r r0, Returns (c.run N.mod x none) (runHistory hist st) r ∧ Returns (c.run N.mod x none) st0 r0 ∧ PEq r r0 := by
  have h1 := C17_ok h hist
  obtain ⟨P, hdet, hP⟩ := N.call_spec h.nodup hB c hc (N.w st0) X
  obtain ⟨r, hr, _, hPr, _⟩ := (hP _ x h1 (w_congr h0 h1 fun i hi => ⟨(hw i hi).1.symm, fun j hj => ((hw i hi).2 j (by rwa [(hw i hi).1])).symm⟩) hx).1.returns
  obtain ⟨r0, hr0, _, hPr0, _⟩ := (hP st0 x h0 rfl hx).1.returns
  exact ⟨r, r0, hr, hr0, hdet r r0 hPr hPr0⟩

/-- C18: `val = model(x)`, then any sequence of product calls at the same `x`, each with `None` or
`val`, then a call with `val`: same result as with `None`.  (`jacobian` itself is never given `val`
here; `hooks = []`: the model is not inside another one.) -/
theorem C18_val (h : N.Ok st) (hh : st.hooks N.mod.id = []) (hB : 0 < B) (hx : IsBatch x B s n X) :
    ∃ val st1, N.mod.call x st = (.ok val, st1) ∧
      ∀ cs : List (Call × Bool), (∀ c ∈ cs, c.1.Valid N B ∧ (c.2 = true → c.1.NotJacobian)) →
      ∀ c : Call, c.Valid N B → c.NotJacobian →
        ∃ r r', Returns (c.run N.mod x (some val)) (runCalls N.mod x val cs st1) r ∧
          Returns (c.run N.mod x none) (runCalls N.mod x val cs st1) r' ∧ PEq r r' := by
  have hf := h.g.forward h.w hB hx
  rw [Net.mdl_m, Net.mdl_Y] at hf
  obtain ⟨val, st1, hv, hval, hs, hcache⟩ := hf
  refine ⟨val, st1, ?_, ?_⟩
  · simp only [Mod.call]
    rw [Prog.bind_ok hv, Prog.bind_read_run, hs.hooks, hh]
    rfl
  · have h1 : N.Ok st1 := h.of_wiring hs.wiring
    have hw1 : N.w st1 = N.w st := by rw [← N.mdl_w]; exact h.g.w_of hs.param
    clear hv hs
    intro cs
    induction cs generalizing st1 with
    | nil =>
      intro _ c hc hj
      obtain ⟨P, hdet, hP⟩ := N.call_spec h.nodup hB c hc (N.w st) X
      have hS := hP st1 x h1 hw1 hx
      obtain ⟨r', hr', _, hPr', _⟩ := hS.1.returns
      obtain ⟨r, hr, _, hPr, _⟩ := (hS.2 hj val (Or.inr (by rw [Net.mdl_Y, hw1]; exact hval)) hcache).returns
      exact ⟨r, r', hr, hr', hdet r r' hPr hPr'⟩
    | cons d cs ih =>
      intro hcs c hc hj
      obtain ⟨hd, hdj⟩ := hcs d (by simp)
      obtain ⟨P, hdet, hP⟩ := N.call_spec h.nodup hB d.1 hd (N.w st) X
      have hS := hP st1 x h1 hw1 hx
      have key : ∃ st2, (d.1.run N.mod x (if d.2 then some val else none) st1).2 = st2 ∧ Step N.mdl.ids st1 st2 ∧ N.mdl.cache B X st2 := by
        rcases hd2 : d.2 with _ | _
        · obtain ⟨r, st2, hr, _, hs, hc⟩ := hS.1
          exact ⟨st2, by simp [hr], hs, hc hcache⟩
        · obtain ⟨r, st2, hr, _, hs, hc⟩ := hS.2 (hdj hd2) val (Or.inr (by rw [Net.mdl_Y, hw1]; exact hval)) hcache
          exact ⟨st2, by simp [hr], hs, hc⟩
      obtain ⟨st2, he, hs, hc2⟩ := key
      have := ih st2 hc2 (h1.of_wiring hs.wiring) (by rw [← hw1, ← N.mdl_w]; exact h.g.w_of hs.param)
        (fun c hc => hcs c (by simp [hc])) c hc hj
      simpa only [runCalls, he] using this

/-- C19: with `val` given, a Sequential (of any modules, in any state) ignores `x` (`jmjTp` without a
matrix still looks at the shape of `x`). -/
theorem C19_ignores_x (id : Nat) (ms : List (Mod ℝ)) (st : Store ℝ) (x x' val : Tensor ℝ) :
    (∀ v wrt, (Sequential.mod id true ms).vjp x (some val) v wrt st = (Sequential.mod id true ms).vjp x' (some val) v wrt st) ∧
    (∀ M wrt, (Sequential.mod id true ms).mjp x (some val) M wrt st = (Sequential.mod id true ms).mjp x' (some val) M wrt st) ∧
    (∀ M wrt fd td db, (Sequential.mod id true ms).jTmjp x (some val) M wrt fd td db st = (Sequential.mod id true ms).jTmjp x' (some val) M wrt fd td db st) ∧
    (∀ M wrt fd td db, M ≠ .none → (Sequential.mod id true ms).jmjTp x (some val) M wrt fd td db st = (Sequential.mod id true ms).jmjTp x' (some val) M wrt fd td db st) :=
  ⟨fun _ _ => rfl, fun _ _ => rfl, fun _ _ _ _ _ => rfl, fun M _ _ _ _ h => by cases M <;> first | rfl | exact (h rfl).elim⟩

/-- C19: after `model(x2)`, a product of a Sequential with any `x1` and any `val1` is the product at
`x2`. -/
theorem C19_last_forward {l : Nat} {id : Nat} {ch : Chain s n s' k p (l + 1)} (h : (Net.seq id ch).Ok st)
    (hh : st.hooks id = []) (hB : 0 < B) {x2 : Tensor ℝ} (hx : IsBatch x2 B s n X) :
    ∃ val2 st2, (Net.seq id ch).mod.call x2 st = (.ok val2, st2) ∧
      ∀ c : Call, c.Valid (.seq id ch) B → c.Backward → ∀ x1 val1,
        ∃ r r2, Returns (c.run (Net.seq id ch).mod x1 (some val1)) st2 r ∧ Returns (c.run (Net.seq id ch).mod x2 none) st2 r2 ∧ PEq r r2 := by
  have hf := h.g.forward h.w hB hx
  rw [Net.mdl_m, Net.mdl_Y] at hf
  obtain ⟨val, st1, hv, hval, hs, hcache⟩ := hf
  refine ⟨val, st1, ?_, fun c hc hb x1 val1 => ?_⟩
  · simp only [Mod.call]
    have : (Net.seq id ch).mod.id = id := by simp only [Net.mod, Sequential.mod]
    rw [Prog.bind_ok hv, Prog.bind_read_run, hs.hooks, this, hh]
    rfl
  · have h1 : (Net.seq id ch).Ok st1 := h.of_wiring hs.wiring
    obtain ⟨P, hdet, hP⟩ := (Net.seq id ch).call_spec h.nodup hB c hc ((Net.seq id ch).w st1) X
    have hS := hP st1 x2 h1 rfl hx
    obtain ⟨r', hr', _, hPr', _⟩ := hS.1.returns
    have hany : (Net.seq id ch).mdl.anyVal := by simp only [Net.mdl, seqMdl]
    have hnj : c.NotJacobian := by cases c <;> trivial
    obtain ⟨r, hr, _, hPr, _⟩ := (hS.2 hnj val1 (Or.inl hany) hcache).returns
    refine ⟨r, r', ?_, hr', hdet r r' hPr hPr'⟩
    have e : c.run (Net.seq id ch).mod x1 (some val1) = c.run (Net.seq id ch).mod x2 (some val1) := by
      simp only [Net.mod]
      cases c with
      | jmjTp M wrt fd td db =>
        cases M with
        | tensor M => rfl
        | none => cases wrt <;> exact hc.elim
        | list _ => cases wrt <;> exact hc.elim
      | _ => first | exact hb.elim | rfl
    rw [e]; exact hr

/-! ### the hypotheses can be met; histories with wrong results -/

/-- a history that includes a failing call (a bad vector), a forward pass on other data, and
`set_weight` -/
noncomputable def exHistory : List (AnyNet × Event) :=
  [(⟨exNet⟩, .method ⟨[3, 2], fun _ => 5⟩ none (.jvp ⟨[7], fun _ => 0⟩ .input)), (⟨exNet⟩, .call ⟨[1, 2], fun _ => 4⟩),
    (⟨exNet⟩, .setWeight ⟨[21], fun i => i⟩)]

example : ∃ r r0, Returns ((Call.vjp ⟨[2, 1], fun _ => 1⟩ .weight).run exNet.mod exInput none) (runHistory exHistory exStore) r ∧
      Returns ((Call.vjp ⟨[2, 1], fun _ => 1⟩ .weight).run exNet.mod exInput none)
        { exStore with param := (runHistory exHistory exStore).param } r0 ∧ PEq r r0 := by
  have hk := runHistory_keeps exHistory exStore
  have h0 := C17_history (B := 2) (X := fun b i => (2 * b + i : ℝ)) exNet_ok exHistory (by norm_num) exInput_isBatch (.vjp ⟨[2, 1], fun _ => 1⟩ .weight) rfl
    (st0 := { exStore with param := (runHistory exHistory exStore).param })
  generalize runHistory exHistory exStore = st at *
  exact h0 (exNet_ok.keeps ⟨hk.param, rfl, fun _ h => h⟩) fun _ _ => ⟨rfl, fun _ _ => rfl⟩

example : ∃ val st1, exNet.mod.call exInput exStore = (.ok val, st1) ∧
    ∃ r r', Returns ((Call.vjp ⟨[2, 1], fun _ => 1⟩ .weight).run exNet.mod exInput (some val))
        (runCalls exNet.mod exInput val [(.jvp ⟨[2, 2], fun _ => 3⟩ .input, false), (.vjp ⟨[2, 1], fun _ => 1⟩ .input, true)] st1) r ∧
      Returns ((Call.vjp ⟨[2, 1], fun _ => 1⟩ .weight).run exNet.mod exInput none)
        (runCalls exNet.mod exInput val [(.jvp ⟨[2, 2], fun _ => 3⟩ .input, false), (.vjp ⟨[2, 1], fun _ => 1⟩ .input, true)] st1) r' ∧ PEq r r' := by
  obtain ⟨val, st1, h1, h2⟩ := C18_val exNet_ok (by simp [exNet, exStore, Net.mod, Sequential.mod]) (by norm_num) exInput_isBatch
  refine ⟨val, st1, h1, h2 _ ?_ (.vjp ⟨[2, 1], fun _ => 1⟩ .weight) rfl trivial⟩
  intro c hc
  simp only [List.mem_cons, List.not_mem_nil, or_false] at hc
  rcases hc with rfl | rfl
  · exact ⟨⟨by simp [exNet, Net.FwdI, Chain.FwdI], rfl⟩, by simp⟩
  · exact ⟨rfl, fun _ => trivial⟩

/-- `Sequential(ReLU())` on one number -/
noncomputable def reluNet : Net [1] 1 [1] 1 (0 + 0) :=
  .seq 0 (.snoc (.nil [1] 1 rfl (by norm_num)) (.act .relu 1 [1] 1 rfl (by norm_num)))

/-- its freshly constructed state (module 1 hooked by the Sequential) -/
noncomputable def reluStore : Store ℝ where
  param _ := ⟨[], fun _ => 0⟩
  fmaps i := if i = 0 then some [] else none
  pidx _ := none
  hooks i := if i = 1 then [0] else []

theorem reluNet_ok : reluNet.Ok reluStore := by
  refine ⟨by simp only [reluNet, Net.ids, Chain.ids]; decide, ?_⟩
  simp [reluNet, Net.Wired, Chain.Wired, reluStore, Net.mod, Activation.toMod, PureLayer.toMod]

/-- a one-number batch -/
noncomputable def num (a : ℝ) : Tensor ℝ := ⟨[1, 1], fun _ => a⟩
theorem num_isBatch (a : ℝ) : IsBatch (num a) 1 [1] 1 fun _ _ => a := ⟨rfl, fun _ _ => rfl⟩
theorem num_isVec (a : ℝ) : IsVec (num a) 1 1 fun _ _ => a := ⟨rfl, fun _ _ => rfl⟩

theorem reluNet_J (st : Store ℝ) (a : Fin 1 → ℝ) : reluNet.J st a = fun _ _ => if 0 < a 0 then 1 else 0 := by
  funext i j
  fin_cases i; fin_cases j
  show (Act.relu.sem 1).J _ a 0 0 * 1 + 0 = _
  simp [Act.sem, Sem.leaf0, Sem.leaf, Act.deriv]

/-- C19, a wrong result: `val1 = model(1)`, then `model(-1)`; then `vjp(1, val1, v)` is 0 although
`vjp(1, None, v)` is 1. -/
theorem C19_bad_history : ∃ val1 st1 val2 st2 t t', reluNet.mod.call (num 1) reluStore = (.ok val1, st1) ∧
    reluNet.mod.call (num (-1)) st1 = (.ok val2, st2) ∧
    Returns (reluNet.mod.vjp (num 1) (some val1) (num 1) .input) st2 (some t) ∧ IsVec t 1 1 (fun _ _ => 0) ∧
    Returns (reluNet.mod.vjp (num 1) none (num 1) .input) st2 (some t') ∧ IsVec t' 1 1 (fun _ _ => 1) := by
  have hh : reluStore.hooks reluNet.mod.id = [] := by simp [reluNet, reluStore, Net.mod, Sequential.mod]
  have call : ∀ st, reluNet.Ok st → st.hooks reluNet.mod.id = [] → ∀ a, ∃ val st1, reluNet.mod.call (num a) st = (.ok val, st1) ∧ reluNet.Ok st1 ∧
      st1.hooks reluNet.mod.id = [] ∧ reluNet.mdl.cache 1 (fun _ _ => a) st1 := by
    intro st h hh a
    have hf := h.g.forward h.w Nat.one_pos (num_isBatch a)
    rw [Net.mdl_m] at hf
    obtain ⟨val, st1, hv, hval, hs, hcache⟩ := hf
    refine ⟨val, st1, ?_, h.of_wiring hs.wiring, by rw [hs.hooks, hh], hcache⟩
    simp only [Mod.call]
    rw [Prog.bind_ok hv, Prog.bind_read_run, hs.hooks, hh]
    rfl
  obtain ⟨val1, st1, e1, h1, hh1, _⟩ := call _ reluNet_ok hh 1
  obtain ⟨val2, st2, e2, h2, hh2, hc2⟩ := call _ h1 hh1 (-1)
  have hv := (h2.g.vjpI h2.w Nat.one_pos (num_isBatch (-1)) (num_isVec 1)).1 val1 (Or.inl (by simp only [reluNet, Net.mdl, seqMdl])) hc2
  rw [Net.mdl_m, Net.mdl_J] at hv
  obtain ⟨t, ht, hT⟩ := hv.returnsSome
  obtain ⟨t', ht', hT'⟩ := h2.vjpI Nat.one_pos (num_isBatch 1) (num_isVec 1)
  refine ⟨val1, st1, val2, st2, t, t', e1, e2, ?_, ?_, ht', ?_⟩
  · exact ht
  · refine hT.congr fun b i => ?_
    simp [reluNet_J, vecMul, dotProduct]
  · refine hT'.congr fun b i => ?_
    simp [reluNet_J, vecMul, dotProduct]

/-- `Sequential(ReLU())`, the inner network below -/
noncomputable def innerNet : Net [1] 1 [1] 1 (0 + 0) :=
  .seq 1 (.snoc (.nil [1] 1 rfl (by norm_num)) (.act .relu 2 [1] 1 rfl (by norm_num)))

/-- `Sequential(Sequential(ReLU()))` -/
noncomputable def nestedNet : Net [1] 1 [1] 1 (0 + (0 + 0)) := .seq 0 (.snoc (.nil [1] 1 rfl (by norm_num)) innerNet)

/-- its freshly constructed state -/
noncomputable def nestedStore : Store ℝ where
  param _ := ⟨[], fun _ => 0⟩
  fmaps i := if i = 0 ∨ i = 1 then some [] else none
  pidx _ := none
  hooks i := if i = 2 then [1] else if i = 1 then [0] else []

theorem nestedNet_ok : nestedNet.Ok nestedStore := by
  refine ⟨by simp only [nestedNet, innerNet, Net.ids, Chain.ids]; decide, ?_⟩
  simp [nestedNet, innerNet, Net.Wired, Chain.Wired, nestedStore, Net.mod, Activation.toMod, PureLayer.toMod, Sequential.mod]

theorem innerNet_J (st : Store ℝ) (a : Fin 1 → ℝ) : innerNet.J st a = fun _ _ => if 0 < a 0 then 1 else 0 := by
  funext i j
  fin_cases i; fin_cases j
  show (Act.relu.sem 1).J _ a 0 0 * 1 + 0 = _
  simp [Act.sem, Sem.leaf0, Sem.leaf, Act.deriv]

theorem nestedNet_J (st : Store ℝ) (a : Fin 1 → ℝ) : nestedNet.J st a = fun _ _ => if 0 < a 0 then 1 else 0 := by
  funext i j
  fin_cases i; fin_cases j
  show ((Act.relu.sem 1).J _ a 0 0 * 1 + 0) * 1 + 0 = _
  simp [Act.sem, Sem.leaf0, Sem.leaf, Act.deriv]

/-- C19, a wrong result without a second `model(...)`: `val1 = model(1)`, then `model.jvp(-1, ...)`;
then `vjp(1, val1, v)` is 0 although `vjp(1, None, v)` is 1. -/
theorem C19_bad_history_jvp : ∃ val1 st1 t1 st2 t t', nestedNet.mod.call (num 1) nestedStore = (.ok val1, st1) ∧
    nestedNet.mod.jvp (num (-1)) none (num 1) .input st1 = (.ok (some t1), st2) ∧
    Returns (nestedNet.mod.vjp (num 1) (some val1) (num 1) .input) st2 (some t) ∧ IsVec t 1 1 (fun _ _ => 0) ∧
    Returns (nestedNet.mod.vjp (num 1) none (num 1) .input) st2 (some t') ∧ IsVec t' 1 1 (fun _ _ => 1) := by
  have hmod : nestedNet.mod = Sequential.mod 0 true [innerNet.mod] := by simp only [nestedNet, Net.mod, Chain.mods, List.nil_append]
  have hid : innerNet.mod.id = 1 := by simp only [innerNet, Net.mod, Sequential.mod]
  have hids : innerNet.mdl.ids = [1, 2] := by simp only [Net.mdl_ids, innerNet, Net.ids, Chain.ids, List.nil_append]
  have hnd : innerNet.ids.Nodup := by simp only [innerNet, Net.ids, Chain.ids]; decide
  have inner : ∀ st, nestedNet.Ok st → innerNet.Ok st ∧ st.hooks 1 = [0] := by
    intro st h
    have := h.wired
    simp only [nestedNet, Net.Wired, Chain.Wired] at this
    exact ⟨⟨hnd, this.2.2.1⟩, by simpa only [hid] using this.2.2.2⟩
  -- val1 = model(1)
  have hf := nestedNet_ok.g.forward nestedNet_ok.w Nat.one_pos (num_isBatch 1)
  rw [Net.mdl_m] at hf
  obtain ⟨val1, st1, hv, -, hs, hcache⟩ := hf
  have h1 : nestedNet.Ok st1 := nestedNet_ok.of_wiring hs.wiring
  have e1 : nestedNet.mod.call (num 1) nestedStore = (.ok val1, st1) := by
    simp only [Mod.call]
    rw [Prog.bind_ok hv, Prog.bind_read_run, hs.hooks, hmod]
    rfl
  obtain ⟨hi1, hh1⟩ := inner st1 h1
  simp only [nestedNet, Net.mdl, seqMdl, Chain.mchain, MChain.listOk] at hcache
  obtain ⟨⟨L, hL, ⟨t0, hL0, -⟩, t1, hL1, -⟩, -⟩ := hcache
  -- model.jvp(-1)
  obtain ⟨v2, sa, ha, -, hcalled⟩ := run_call hi1.g hi1.w (q := 0) (by rw [Net.mdl_m, hid]; exact hh1) (by rw [hids]; simp) hL Nat.one_pos (num_isBatch (-1))
  have hia : innerNet.Ok sa := hi1.of_wiring hcalled.step.wiring
  have hVok : ∀ st v, innerNet.mdl.VOk st (fun (_ : Fin 1) _ => (-1 : ℝ)) v := fun st v => Or.inl (by simp only [innerNet, Net.mdl, seqMdl])
  obtain ⟨r2, st2, hr2, hr2', hs2, hc2⟩ := hia.g.jvpI (innerNet.mdl_fwdI.2 (by simp [innerNet, Net.FwdI, Chain.FwdI])) hia.w Nat.one_pos (num_isBatch (-1)) (num_isVec 1)
    (some v2) (fun v _ => hVok _ v)
  rw [Net.mdl_m] at ha hr2
  cases r2 with
  | none => exact hr2'.elim
  | some r2 =>
  have e2 : nestedNet.mod.jvp (num (-1)) none (num 1) .input st1 = (.ok (some r2), st2) := by
    have : Sequential.jvpInput [innerNet.mod] (num (-1)) (num 1) st1 = (.ok r2, st2) := by
      rw [Sequential.jvpInput, Prog.bind_ok ha, Prog.bind_ok hr2]
      rfl
    rw [hmod]
    show Sequential.jvp [innerNet.mod] (num (-1)) none (num 1) .input st1 = _
    simp only [Sequential.jvp]
    exact (Prog.bind_ok (b := r2) (s' := st2) this)
  have hi2 : innerNet.Ok st2 := hia.of_wiring hs2.wiring
  have h2 : nestedNet.Ok st2 := h1.of_wiring ((hcalled.step.trans (hs2.mono fun _ hi => List.mem_cons_of_mem _ hi)).wiring)
  have hL2 : st2.fmaps 0 = some (L ++ [v2]) := by rw [(hs2.frame 0 (by rw [hids]; simp)).1, hcalled.fmaps]
  -- model.vjp(1, val1)
  have hv2 := (hi2.g.vjpI hi2.w Nat.one_pos (num_isBatch (-1)) (num_isVec 1)).1 t1 (hVok _ _) (hc2 hcalled.cache)
  rw [Net.mdl_m, Net.mdl_J] at hv2
  obtain ⟨r3, s3, hr3, hr3', rfl⟩ := hv2
  cases r3 with
  | none => exact hr3'.elim
  | some t =>
  obtain ⟨t', ht', hT'⟩ := h2.vjpI Nat.one_pos (num_isBatch 1) (num_isVec 1)
  refine ⟨val1, st1, r2, s3, t, t', e1, e2, ?_, ?_, ht', ?_⟩
  · have g0 : (L ++ [v2])[0]? = some t0 := by
      rw [List.getElem?_append_left (List.getElem?_eq_some_iff.1 hL0).1, hL0]
    have g1 : (L ++ [v2])[1]? = some t1 := by
      rw [List.getElem?_append_left (List.getElem?_eq_some_iff.1 hL1).1, hL1]
    have hr4 : innerNet.mod.vjp t0 (some t1) (num 1) .input s3 = (.ok (some t), s3) := by
      have e : innerNet.mod.vjp t0 (some t1) (num 1) .input s3 = innerNet.mod.vjp (num (-1)) (some t1) (num 1) .input s3 := by
        simp only [innerNet, Net.mod]; rfl
      exact e.trans hr3
    have : Sequential.vjpInput 0 [innerNet.mod] 1 (num 1) s3 = (.ok t, s3) := by
      rw [Sequential.vjpInput, Prog.bind_ok (p := Sequential.child [innerNet.mod] 0) (b := innerNet.mod) (s' := s3) rfl, Prog.bind_ok (MChain.fmap_of hL2 g0), Prog.bind_ok (MChain.fmap_of hL2 g1), Prog.bind_ok hr4]
      rfl
    rw [Returns, hmod]
    show (Sequential.vjp 0 true [innerNet.mod] (num 1) (some val1) (num 1) .input s3).1 = _
    simp only [Sequential.vjp]
    exact congrArg Prod.fst (Prog.bind_ok (b := t) (s' := s3) this)
  · refine IsVec.congr hr3' fun b i => ?_
    simp [innerNet_J, vecMul, dotProduct]
  · refine hT'.congr fun b i => ?_
    simp [nestedNet_J, vecMul, dotProduct]

end Props
end NNJ
