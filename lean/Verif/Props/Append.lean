import Verif.Proofs.Append
import Verif.Proofs.Slice
import Verif.Props.History
import Verif.Props.Jacobian
import Verif.Proofs.NoneNet
import Verif.Proofs.Weights

/-!
# C53: a Sequential edited in place

`model.append(layer)` and `model[k] = layer` are inherited from `torch.nn.Sequential`.  They change the layers `forward`, `jvp`
and `jmp` run through, but neither the list the backward passes run through, nor the number of parameters, nor the hooks.
-/

namespace NNJ.Props
open NNJ Matrix Tensor

variable {s s' s'' : List Nat} {n k j p q l B id : Nat} {st : Store ℝ} {x : Tensor ℝ} {X : Fin B → Fin n → ℝ}
variable {c : Chain s n s' k p (l + 1)} {m : Net s' k s'' j q}

/-- As long as nothing has been edited, the object is the one of the other properties (nnj/sequential.py:10-28). -/
theorem C53_unedited (id : Nat) (addHooks : Bool) (ms : List (Mod ℝ)) : Sequential.edited id addHooks ms ms (Sequential.nParams ms) = Sequential.mod id addHooks ms := rfl

/-- After `model.append(layer)`, `model.forward` is the layer applied to what the model computed before. -/
theorem C53_forward (h : Appended id c m st) (hB : 0 < B) (hx : IsBatch x B s n X) :
    ∃ y, Returns ((Sequential.append id c.mods m.mod).forward x) st y ∧
      IsBatch y B s'' j fun b => forwardMap m.mod st s' (forwardMap (k := k) (Net.seq id c).mod st s (X b)) := by
  obtain ⟨y, hy, _, hY, -⟩ := (h.forward hB hx).returns
  rw [h.ok.forwardMap_eq, h.okm.forwardMap_eq]
  exact ⟨y, hy, hY⟩

theorem appended_map (h : Appended id c m st) :
    forwardMap (n := n) (k := j) (Sequential.append id c.mods m.mod) st s = fun z => forwardMap m.mod st s' (forwardMap (k := k) (Net.seq id c).mod st s z) := by
  funext z
  obtain ⟨y, hy, hY⟩ := C53_forward h Nat.one_pos (ofSample_isBatch (s := s) z)
  funext i
  have hy' : ((Sequential.append id c.mods m.mod).forward (ofSample s z) st).1 = .ok y := hy
  rw [forwardMap, hy']
  have := hY.2 0 i
  simpa using this

/-- `jvp` and `jmp` wrt input follow: they multiply with the Jacobians of the model as it was and of the new layer. -/
theorem C53_forward_mode (h : Appended id c m st) (hc : c.FwdI) (hm : m.FwdI) (hB : 0 < B) (hx : IsBatch x B s n X) (val : Option (Tensor ℝ)) :
    ∃ y ja jm, ∃ (JA : Fin B → Matrix (Fin k) (Fin n) ℝ) (JM : Fin B → Matrix (Fin j) (Fin k) ℝ),
      Returns ((Net.seq id c).mod.forward x) st y ∧
      Returns ((Net.seq id c).mod.jacobian x none .input) st (some ja) ∧ IsMat ja B k n JA ∧
      Returns (m.mod.jacobian y none .input) st (some jm) ∧ IsMat jm B j k JM ∧
      (∀ v V, IsVec v B n V → ∃ t, Returns ((Sequential.append id c.mods m.mod).jvp x val v .input) st (some t) ∧
        IsVec t B j fun b => JM b *ᵥ (JA b *ᵥ V b)) ∧
      ∀ r A Z, IsMat A B n r Z → ∃ t, Returns ((Sequential.append id c.mods m.mod).jmp x val (some A) .input) st (some t) ∧
        IsMat t B j r fun b => JM b * (JA b * Z b) := by
  obtain ⟨y, hy, hY⟩ := h.ok.forward hB hx
  obtain ⟨ja, hja, hJA⟩ := h.ok.jacI hB hx
  obtain ⟨jm, hjm, hJM⟩ := h.okm.jacI hB hY
  have hnd := h.ok.nodup
  have hw := h.ok.wired
  rw [Net.ids] at hnd
  rw [Net.Wired] at hw
  have hnd' := hnd
  rw [← Chain.mchain_ids] at hnd'
  have g := Chain.good c (List.nodup_cons.1 hnd).2
  have hw' := (c.mchain_wired id st).2 hw.2
  obtain ⟨L, hL⟩ := Option.isSome_iff_exists.1 hw.1
  have hfm : m.mdl.fwdI := (m.mdl_fwdI).2 hm
  have hfc : c.mchain.fwdI := (c.mchain_fwdI).2 hc
  have hh : st.hooks m.mdl.m.id = [] := by rw [Net.mdl_m]; exact h.unhooked
  refine ⟨y, ja, jm, _, _, hy, hja, hJA, hjm, hJM, fun v V hv => ?_, fun r A Z hA => ?_⟩
  · obtain ⟨t, s1, ht, hT⟩ := MChain.jvpInput_then g hfc hnd' hw' hB hx hL h.okm.g hfm h.okm.w hh hv
    rw [Net.mdl_m, Chain.mchain_mods] at ht
    refine ⟨t, ?_, hT.congr fun b i => ?_⟩
    · show (Sequential.jvpE (c.mods ++ [m.mod]) (Sequential.nParams c.mods) x val v .input st).1 = _
      simp only [Sequential.jvpE]
      exact congrArg Prod.fst (Prog.bind_ok ht)
    · simp only [Net.J, Net.sem, Net.w, Mdl.J, MChain.J, MChain.Y, Net.mdl_S, Net.mdl_w, Chain.mchain_S, Chain.mchain_w]
  · obtain ⟨t, s1, ht, hT⟩ := MChain.jmpInput_then g hfc hnd' hw' hB hx hL h.okm.g hfm h.okm.w hh hA
    rw [Net.mdl_m, Chain.mchain_mods] at ht
    refine ⟨t, ?_, hT.congr fun b i _ => ?_⟩
    · show (Sequential.jmpE id true (c.mods ++ [m.mod]) c.mods (Sequential.nParams c.mods) x val (some A) .input st).1 = _
      simp only [Sequential.jmpE]
      exact congrArg Prod.fst (Prog.bind_ok ht)
    · simp only [Net.J, Net.sem, Net.w, Mdl.J, MChain.J, MChain.Y, Net.mdl_S, Net.mdl_w, Chain.mchain_S, Chain.mchain_w]

/-- The backward passes do not: `vjp`, `mjp`, `jTmjp` and `jmjTp` return what the model returned before the new layer was appended. -/
theorem C53_backward (h : Appended id c m st) (hB : 0 < B) (hx : IsBatch x B s n X) (cl : Call) (hc : cl.Valid (Net.seq id c) B)
    (hb : cl.Backward) :
    ∃ r r0, Returns (cl.run (Sequential.append id c.mods m.mod) x none) st r ∧ Returns (cl.run (Net.seq id c).mod x none) st r0 ∧ PEq r r0 := by
  obtain ⟨y, st1, hy, -, hst, hcache⟩ := h.forward hB hx
  have h1 : (Net.seq id c).Ok st1 := h.ok.of_wiring hst.wiring
  have hw : (Net.seq id c).w st1 = (Net.seq id c).w st := by
    have := h.ok.g.w_of hst.param
    rwa [Net.mdl_w] at this
  obtain ⟨P, hdet, hP⟩ := (Net.seq id c).call_spec h.ok.nodup hB cl hc ((Net.seq id c).w st) X
  have hS := hP st x h.ok rfl hx
  obtain ⟨r0, hr0, _, hPr0, _⟩ := hS.1.returns
  have hj : cl.NotJacobian := by cases cl <;> first | exact hb.elim | trivial
  obtain ⟨r, hr, _, hPr, _⟩ := ((hP st1 x h1 hw hx).2 hj y (Or.inl (by simp only [Net.mdl, seqMdl])) hcache).returns
  exact ⟨r, r0, by rw [Returns, append_backward hy hc hb]; exact hr, hr0, hdet r r0 hPr hPr0⟩

/-- If the new layer keeps the number of features, so does `jacobian`: it returns the Jacobian of the model without the new layer. -/
theorem C53_jacobian {m : Net s' k s'' k q} (h : Appended id c m st) (hB : 0 < B) (hx : IsBatch x B s n X) :
    (∃ t t0, Returns ((Sequential.append id c.mods m.mod).jacobian x none .input) st (some t) ∧
      Returns ((Net.seq id c).mod.jacobian x none .input) st (some t0) ∧ TEq t t0) ∧
    (0 < p → ∃ t t0, Returns ((Sequential.append id c.mods m.mod).jacobian x none .weight) st (some t) ∧
      Returns ((Net.seq id c).mod.jacobian x none .weight) st (some t0) ∧ TEq t t0) := by
  obtain ⟨y, st1, hy, hY, hst, hcache⟩ := h.forward hB hx
  have h1 : (Net.seq id c).Ok st1 := h.ok.of_wiring hst.wiring
  obtain ⟨I, hI, hIm⟩ := MChain.eyeFor_ret h.okm.g.hk hY
  have hV : (Net.seq id c).mdl.VOk st1 X y := Or.inl (by simp only [Net.mdl, seqMdl])
  constructor
  · obtain ⟨t0, ht0, hT0⟩ := h.ok.jacI hB hx
    obtain ⟨t, ht, hT⟩ := Run.returnsSome ((h1.g.mjpI h1.w hB hx h.ok.g.kpos hIm).1 y hV hcache)
    refine ⟨t, t0, ?_, ht0, teq_mat hT (hT0.congr fun b i i' => ?_)⟩
    · rw [Returns, append_jacobian hy hI (Or.inl rfl), ← Net.mdl_m]; exact ht
    · rw [Matrix.one_mul, h.ok.g.J_of hst.param, Net.mdl_J]
  · intro hp
    obtain ⟨t0, ht0, hT0⟩ := h.ok.jacW hB hx hp
    obtain ⟨t, ht, hT⟩ := (Run.returnsOptW ((h1.g.mjpW h1.w hB hx h.ok.g.kpos hIm).1 y hV hcache)).1 hp
    refine ⟨t, t0, ?_, ht0, teq_mat hT (hT0.congr fun b i i' => ?_)⟩
    · rw [Returns, append_jacobian hy hI (Or.inr rfl), ← Net.mdl_m]; exact ht
    · rw [Matrix.one_mul, h.ok.g.JW_of hst.param, Net.mdl_JW]

/-- If the new layer has parameters, `jvp` and `jmp` wrt weight never return (whatever the layers and the arguments): the number of
parameters they count is not the one the constructor counted. -/
theorem C53_weight (id : Nat) (ms : List (Mod ℝ)) (m : Mod ℝ) (hm : 0 < m.nParams) (x : Tensor ℝ) (val : Option (Tensor ℝ)) (st : Store ℝ) :
    (∀ v r, ¬ Returns ((Sequential.append id ms m).jvp x val v .weight) st r) ∧
    ∀ A r, ¬ Returns ((Sequential.append id ms m).jmp x val (some A) .weight) st r := by
  have hn : Sequential.nParams (ms ++ [m]) ≠ Sequential.nParams ms := by simp [Sequential.nParams]; omega
  constructor
  · intro v r h
    have h' : (Sequential.jvpE (ms ++ [m]) (Sequential.nParams ms) x val v .weight st).1 = .ok r := h
    simp only [Sequential.jvpE] at h'
    obtain ⟨_, s0, _, h0⟩ := bind_inv (Prod.ext h' rfl : _ = (Except.ok r, _))
    obtain ⟨a, s1, h1, h2⟩ := bind_inv h0
    have hc := jvpWeight_count v (ms ++ [m]) x 0 none _ _ _ h1
    rw [Nat.zero_add] at hc
    simp only [hc, hn] at h2
    cases h2
  · intro v r h
    have h' : (Sequential.jmpE id true (ms ++ [m]) ms (Sequential.nParams ms) x val (some v) .weight st).1 = .ok r := h
    simp only [Sequential.jmpE] at h'
    obtain ⟨_, s0, _, h0⟩ := bind_inv (Prod.ext h' rfl : _ = (Except.ok r, _))
    obtain ⟨a, s1, h1, h2⟩ := bind_inv h0
    have hc := jmpWeight_count v (ms ++ [m]) x 0 none _ _ _ h1
    rw [Nat.zero_add] at hc
    simp only [hc, hn] at h2
    cases h2

/-- `get_weight` and `set_weight` see the edited layers: they do what they do on `Sequential(*layers, layer)` and on the Sequential of the
layers after the assignment.  The attribute `_n_params` stays that of the constructor call (so an enclosing Sequential, built
afterwards, splits its weights at the wrong place). -/
theorem C53_parameters (id k : Nat) (ms : List (Mod ℝ)) (m : Mod ℝ) (v : Tensor ℝ) :
    (Sequential.append id ms m).getWeight = (Sequential.mod id true (ms ++ [m])).getWeight ∧
    (Sequential.append id ms m).setWeight v = (Sequential.mod id true (ms ++ [m])).setWeight v ∧
    (Sequential.append id ms m).nParams = (Sequential.mod id true ms).nParams ∧
    (Sequential.setItem id ms k m).getWeight = (Sequential.mod id true (ms.set k m)).getWeight ∧
    (Sequential.setItem id ms k m).setWeight v = (Sequential.mod id true (ms.set k m)).setWeight v ∧
    (Sequential.setItem id ms k m).nParams = (Sequential.mod id true ms).nParams := ⟨rfl, rfl, rfl, rfl, rfl, rfl⟩

/-- In particular `get_weight` of the model after `append` has the values of the parameters of the new layer at its end. -/
theorem C53_get_weight (h : Appended id c m st) (hd : (c.paramIds ++ m.paramIds).Nodup) (hp : 0 < p + q) :
    (Sequential.append id c.mods m.mod).nParams = p ∧
    ∃ t, Returns (Sequential.append id c.mods m.mod).getWeight st t ∧ IsVec1 t (p + q) (Fin.append ((Net.seq id c).w st) (m.w st)) := by
  refine ⟨c.nParams_eq, ?_⟩
  have hS : (Net.seq id (c.snoc m)).Shapes st := by
    have h1 := Net.Wired.shapes _ st h.ok.wired
    simp only [Net.Shapes, Chain.Shapes] at h1 ⊢
    exact ⟨h1, Net.Wired.shapes m st h.okm.wired⟩
  have hd' : (Net.seq id (c.snoc m)).paramIds.Nodup := by simpa only [Net.paramIds, Chain.paramIds] using hd
  have he : (Sequential.append id c.mods m.mod).getWeight = (Net.seq id (c.snoc m)).mod.getWeight := by
    simp only [Net.mod, Chain.mods]; rfl
  have hf := (Net.seq id (c.snoc m)).w_flat st hS
  obtain ⟨t, ht, hs, hd⟩ := getWeight_run (m := (Net.seq id (c.snoc m)).mod) st (by
    rw [Net.parameters _ hd', ne_eq, Net.paramIds_nil]; omega)
  rw [Net.parameters _ hd', hf.1] at hs hd
  refine ⟨t, by rw [he, Returns, ht], hs, fun i => ?_⟩
  rw [hd i i.2, ← hf.2]
  simp only [Net.w, Chain.w]

section
variable {s1 s2 : List Nat} {n1 n2 l1 l2 p1 p2 : Nat} {c1 : Chain s n s1 n1 p1 l1} {m : Net s1 n1 s2 n2 q} {c2 : Chain s2 n2 s' k p2 l2}

/-- `model[i] = layer`: the layers before it, the new layer, the layers after it are what `forward` now runs through; the products
that start from the last feature map (all but `jmjTp` of the backward passes) raise IndexError, because the new layer has no hook. -/
theorem C53_setitem (h : Replaced id c1 m c2 st) (old : Mod ℝ) (hB : 0 < B) (hx : IsBatch x B s n X) :
    (∃ y, Returns ((Sequential.setItem id (c1.mods ++ old :: c2.mods) l1 m.mod).forward x) st y ∧
      IsBatch y B s' k (fun b => c2.sem.f (c2.w st) (m.sem.f (m.w st) (c1.sem.f (c1.w st) (X b))))) ∧
    ∀ cl : Call, cl.ReadsLast → cl.PassesAsserts →
      (cl.run (Sequential.setItem id (c1.mods ++ old :: c2.mods) l1 m.mod) x none st).1 = .error .index := by
  have hset : (c1.mods ++ old :: c2.mods).set l1 m.mod = c1.mods ++ m.mod :: c2.mods := by
    have hlen := c1.len_mods
    rw [List.set_append_right _ _ (by omega), hlen, Nat.sub_self]; rfl
  obtain ⟨y, st1, hy, hY, hS⟩ := h.forward hB hx
  have hlen : (c1.mods ++ old :: c2.mods).length = l1 + l2 + 1 := by simp [c1.len_mods, c2.len_mods]; omega
  simp only [Sequential.setItem, hset]
  exact ⟨⟨y, congrArg Prod.fst hy, hY⟩, fun cl hc ha => short_call hy hS hlen (by rw [hY.1]; simp) cl hc ha⟩
end

/-! ### Examples -/

/-- the layers of `Sequential(ReLU())` -/
noncomputable def reluChain : Chain [1] 1 [1] 1 (0 + 0) 1 := .snoc (.nil [1] 1 rfl (by norm_num)) (.act .relu 1 [1] 1 rfl (by norm_num))

/-- `Linear(1, 1, bias=False)` -/
noncomputable def doubleNet : Net [1] 1 [1] 1 (1 * 1 + 0) := .linear 2 0 none 1 1 (by norm_num) (by norm_num)

/-- `Sequential(ReLU())` and a Linear layer with weight 2 -/
noncomputable def doubleStore : Store ℝ where
  param _ := ⟨[1, 1], fun _ => 2⟩
  fmaps i := if i = 0 then some [] else none
  pidx _ := none
  hooks i := if i = 1 then [0] else []

theorem reluChain_ok : (Net.seq 0 reluChain).Ok doubleStore := by
  refine ⟨by simp only [reluChain, Net.ids, Chain.ids]; decide, ?_⟩
  simp [reluChain, Net.Wired, Chain.Wired, doubleStore, Net.mod, Activation.toMod, PureLayer.toMod]

theorem double_appended : Appended 0 reluChain doubleNet doubleStore where
  ok := reluChain_ok
  okm := ⟨by simp [doubleNet, Net.ids], by simp [doubleNet, Net.Wired, doubleStore]⟩
  disjoint := by simp [doubleNet, reluChain, Net.ids, Chain.ids]
  unhooked := by simp [doubleNet, doubleStore, Net.mod, Linear.mod, PureLayer.toMod]

example : ∃ r r0, Returns ((Call.vjp (num 1) .input).run (Sequential.append 0 reluChain.mods doubleNet.mod) (num 1) none) doubleStore r ∧
    Returns ((Call.vjp (num 1) .input).run (Net.seq 0 reluChain).mod (num 1) none) doubleStore r0 ∧ PEq r r0 :=
  C53_backward double_appended Nat.one_pos (num_isBatch 1) _ rfl trivial

example (v r) : ¬ Returns ((Sequential.append 0 reluChain.mods doubleNet.mod).jvp (num 1) none v .weight) doubleStore r :=
  (C53_weight 0 reluChain.mods doubleNet.mod (by simp [doubleNet, Net.mod, Linear.mod, PureLayer.toMod]) (num 1) none doubleStore).1 v r

example : ∃ t, Returns (Sequential.append 0 reluChain.mods doubleNet.mod).getWeight doubleStore t ∧ t.data 0 = 2 := by
  obtain ⟨t, ht, hT⟩ := (C53_get_weight double_appended (by simp [reluChain, doubleNet, Net.paramIds, Chain.paramIds]) (by norm_num)).2
  refine ⟨t, ht, (hT.2 0).trans ?_⟩
  simp [doubleNet, Net.w, linearW, doubleStore, Fin.append, Fin.addCases]

/-- `model = Sequential(ReLU(), Linear(1, 1)); model[1] = Linear(1, 1, bias=False)` -/
example (old : Mod ℝ) : ((Call.vjp (num 1) .input).run (Sequential.setItem 0 (reluChain.mods ++ [old]) 1 doubleNet.mod) (num 1) none doubleStore).1 =
    .error .index := by
  have h : Replaced 0 reluChain doubleNet (.nil [1] 1 rfl (by norm_num)) doubleStore := by
    refine ⟨by simp [reluChain, doubleNet, Net.ids, Chain.ids], rfl, ?_, double_appended.okm.wired, trivial, double_appended.unhooked⟩
    have := reluChain_ok.wired
    rw [Net.Wired] at this
    exact this.2
  have := (C53_setitem h old Nat.one_pos (num_isBatch 1)).2 (.vjp (num 1) .input) trivial (Or.inl rfl)
  simpa only [Chain.mods] using this

/-- `model = Sequential(ReLU()); model.append(Linear(1, 1, bias=False))` with weight 2: `model` computes `2 * relu(x)`, with derivative
2 at `x = 1`, which is what `jvp` uses; `jacobian` and `vjp` use 1. -/
theorem C53_wrong : HasFDerivAt (forwardMap (Sequential.append 0 reluChain.mods doubleNet.mod) doubleStore [1]) (linMap (fun _ _ : Fin 1 => 2)) (fun _ => 1) ∧
    (∃ t, Returns ((Sequential.append 0 reluChain.mods doubleNet.mod).jvp (num 1) none (num 1) .input) doubleStore (some t) ∧ IsVec t 1 1 fun _ _ => 2) ∧
    (∃ t, Returns ((Sequential.append 0 reluChain.mods doubleNet.mod).vjp (num 1) none (num 1) .input) doubleStore (some t) ∧ IsVec t 1 1 fun _ _ => 1) ∧
    ∃ t, Returns ((Sequential.append 0 reluChain.mods doubleNet.mod).jacobian (num 1) none .input) doubleStore (some t) ∧ IsMat t 1 1 1 fun _ _ _ => 1 := by
  have hA := double_appended
  have hJ : ∀ z, (Net.seq 0 reluChain).J doubleStore z = fun _ _ => if 0 < z 0 then 1 else 0 := reluNet_J doubleStore
  have hM : ∀ z, doubleNet.J doubleStore z = fun _ _ => 2 := fun z => by
    funext i i'
    fin_cases i; fin_cases i'
    simp [Net.J, doubleNet, Net.sem, Net.w, doubleStore, linearSem, Sem.leaf, linearW]
  refine ⟨?_, ?_, ?_, ?_⟩
  · have d1 : HasFDerivAt (forwardMap (k := 1) (Net.seq 0 reluChain).mod doubleStore [1]) (linMap fun _ _ : Fin 1 => 1) (fun _ => 1) := by
      have := ((Net.seq 0 reluChain).diff ((Net.seq 0 reluChain).w doubleStore) (fun _ => 1) (by
        simp [reluChain, Net.sem, Chain.sem, Sem.comp, Sem.id, Act.sem, Sem.leaf0, Sem.leaf, Act.smoothAt])).input
      rw [hA.ok.forwardMap_eq]
      have e := hJ fun _ => 1
      simp only [Net.J] at e
      rw [e] at this
      simpa using this
    have d2 : ∀ z, HasFDerivAt (forwardMap (k := 1) doubleNet.mod doubleStore [1]) (linMap fun _ _ : Fin 1 => 2) z := fun z => by
      have := (doubleNet.diff (doubleNet.w doubleStore) z (by simp [doubleNet, Net.sem, linearSem, Sem.leaf])).input
      rw [hA.okm.forwardMap_eq]
      have e := hM z
      simp only [Net.J] at e
      rw [e] at this
      exact this
    have d := (d2 (forwardMap (Net.seq 0 reluChain).mod doubleStore [1] fun _ => 1)).comp _ d1
    rw [appended_map hA]
    have e : linMap (fun _ _ : Fin 1 => 2) = (linMap fun _ _ : Fin 1 => 2).comp (linMap fun _ _ : Fin 1 => 1) := by
      refine ContinuousLinearMap.ext fun v => ?_
      funext i
      show ((fun _ _ : Fin 1 => (2 : ℝ)) *ᵥ v) i = ((fun _ _ : Fin 1 => (2 : ℝ)) *ᵥ ((fun _ _ : Fin 1 => (1 : ℝ)) *ᵥ v)) i
      simp [mulVec, dotProduct]
    rw [e]
    exact d
  · obtain ⟨y, ja, jm, JA, JM, h1, h2, h3, h4, h5, h6, -⟩ := C53_forward_mode hA (by simp [reluChain, Chain.FwdI, Net.FwdI]) (by simp [doubleNet, Net.FwdI])
      Nat.one_pos (num_isBatch 1) none
    obtain ⟨y', h1', hY⟩ := hA.ok.forward Nat.one_pos (num_isBatch 1)
    obtain ⟨ja', h2', h3'⟩ := hA.ok.jacI Nat.one_pos (num_isBatch 1)
    obtain ⟨t, ht, hT⟩ := h6 _ _ (num_isVec 1)
    rw [Returns, h1] at h1'
    cases h1'
    rw [Returns, h2] at h2'
    cases h2'
    obtain ⟨jm', h4', h5'⟩ := hA.okm.jacI Nat.one_pos hY
    rw [Returns, h4] at h4'
    cases h4'
    refine ⟨t, ht, hT.congr fun b i => ?_⟩
    have e1 : JA b = fun _ _ => 1 := by
      ext a d
      rw [← h3.2, h3'.2, hJ]; simp
    have e2 : JM b = fun _ _ => 2 := by
      ext a d
      rw [← h5.2, h5'.2, hM]
    rw [e1, e2]
    simp [mulVec, dotProduct]
  · obtain ⟨r, r0, h1, h2, h3⟩ := C53_backward hA Nat.one_pos (num_isBatch 1) (.vjp (num 1) .input) rfl trivial
    obtain ⟨t0, h4, h5⟩ := hA.ok.vjpI Nat.one_pos (num_isBatch 1) (num_isVec 1)
    obtain ⟨a, s1, h6, h7⟩ := bind_inv (Prod.ext h1 rfl : _ = (Except.ok r, _))
    obtain ⟨a0, s2, h8, h9⟩ := bind_inv (Prod.ext h2 rfl : _ = (Except.ok r0, _))
    rw [Returns, h8] at h4
    cases h4
    cases h7
    cases h9
    cases a with
    | none => cases h3
    | some t =>
      cases h3 with
      | tensor h3 =>
      refine ⟨t, congrArg Prod.fst h6, h3.1.trans h5.1, fun b i => ?_⟩
      have e := h5.2 b i
      rw [hJ] at e
      simp [vecMul, dotProduct] at e
      rw [← e]
      have := h3.2 0 (by rw [h3.1, h5.1]; simp [size])
      simpa [Tensor.get, h3.1, h5.1, ravel] using this
  · obtain ⟨⟨t, t0, h1, h2, h3⟩, -⟩ := C53_jacobian hA Nat.one_pos (num_isBatch 1)
    obtain ⟨t1, h2', h3'⟩ := hA.ok.jacI Nat.one_pos (num_isBatch 1)
    rw [Returns, h2] at h2'
    cases h2'
    refine ⟨t, h1, h3.1.trans h3'.1, fun b i j => ?_⟩
    have e := h3'.2 b i j
    rw [hJ] at e
    simp at e
    rw [← e]
    have := h3.2 0 (by rw [h3.1, h3'.1]; simp [size])
    simpa [Tensor.get, h3.1, h3'.1, ravel] using this

end NNJ.Props
