import Verif.Proofs.InplaceCalls
import Verif.Props.History

/-!
# C62: `ReLU(inplace=True)`

`ip id`: the ReLU with identity `id` overwrites its input.  `x : Ref` is the caller's tensor, `h` the state of memory.  The statements compare with the
network without in-place layers (`N.mod`) on the same values (`x.get h.mem`, `h.view`).
-/

namespace NNJ.Props
open NNJ Tensor Matrix

section
variable {s s' : List Nat} {n k p B : Nat} {N : Net s n s' k p} {X : Fin B → Fin n → ℝ} {x : Ref} {h : HStore ℝ} {ip : Nat → Bool}

/-- C62: the forward pass returns what the network without in-place layers returns, the caller's tensor holds `relu(x)` afterwards if the network overwrites its
input and `x` if it does not, and all other tensors in use before the call and all parameters keep their values. -/
theorem C62_forward (hok : N.Ok h.view) (htop : h.hooks N.mod.id = []) (hsafe : N.SkipsSafe ip) (hlt : x.cell < h.next) (hB : 0 < B)
    (hx : IsBatch (x.get h.mem) B s n X) :
    ∃ v h' y, (N.hmod ip).call x h = (.ok v, h') ∧ Returns (N.mod.call (x.get h.mem)) h.view y ∧ TEq (v.get h'.mem) y ∧
      IsBatch (x.get h'.mem) B s n (fun b i => if N.overwrites ip false then max (X b i) 0 else X b i) ∧
      (∀ z : Ref, z.cell < h.next → z.cell ≠ x.cell → z.get h'.mem = z.get h.mem) ∧ h'.param = h.param := by
  obtain ⟨v, h', e, r⟩ := N.hrun ip hok.nodup hsafe hok.wired hB hx hlt
  have hf := hok.g.forward hok.w hB hx
  rw [Net.mdl_m, Net.mdl_Y] at hf
  obtain ⟨y, st1, hy, hY, hs, _⟩ := hf
  refine ⟨v, h', y, HMod.call_nil e (by rw [Net.hmod_id, r.step.hooks, htop]), ?_, teq_batch hok.g.hk r.out hY, ?_, fun z hz hne => ?_, r.step.param⟩
  · simp only [Returns, Mod.call]
    rw [Prog.bind_ok hy, Prog.bind_read_run, hs.hooks]
    have : h.view.hooks N.mod.id = [] := htop
    rw [this]
    rfl
  · exact hx.rl _ rfl r.mem.xin
  · simp only [Ref.get, r.mem.keep z.cell hz hne]

/-- C62: `val = model(x)`; then `vjp`, `mjp` and `jTmjp` with `x` and `val`, with respect to the input or the weights, return what they return for the network
without in-place layers at the original `x`: the overwritten feature maps, and the overwritten `x`, do no harm. -/
theorem C62_products (hok : N.Ok h.view) (htop : h.hooks N.mod.id = []) (hsafe : N.SkipsSafe ip) (hlt : x.cell < h.next) (hB : 0 < B)
    (hx : IsBatch (x.get h.mem) B s n X) :
    ∃ v h', (N.hmod ip).call x h = (.ok v, h') ∧ ∀ c : Call, c.Valid N B → c.Reverse →
      ∃ r r0, Returns (c.run N.mod (x.get h'.mem) (some (v.get h'.mem))) h'.view r ∧ Returns (c.run N.mod (x.get h.mem) none) h.view r0 ∧ PEq r r0 := by
  obtain ⟨v, h', e, r⟩ := N.hrun ip hok.nodup hsafe hok.wired hB hx hlt
  exact ⟨v, h', HMod.call_nil e (by rw [Net.hmod_id, r.step.hooks, htop]), fun c hc hr => (r.at hok.nodup hsafe hok.wired hx).pair hok hB hx c hc hr⟩

/-- C62: the same for `jacobian` of a Sequential -/
theorem C62_jacobian {l id : Nat} {ch : Chain s n s' k p (l + 1)} (hok : (Net.seq id ch).Ok h.view) (htop : h.hooks id = [])
    (hsafe : (Net.seq id ch).SkipsSafe ip) (hlt : x.cell < h.next) (hB : 0 < B) (hx : IsBatch (x.get h.mem) B s n X) :
    ∃ v h', ((Net.seq id ch).hmod ip).call x h = (.ok v, h') ∧ ∀ wrt, (Call.jacobian wrt).Valid (.seq id ch) B →
      ∃ r r0, Returns ((Call.jacobian wrt).run (Net.seq id ch).mod (x.get h'.mem) (some (v.get h'.mem))) h'.view r ∧
        Returns ((Call.jacobian wrt).run (Net.seq id ch).mod (x.get h.mem) none) h.view r0 ∧ PEq r r0 := by
  obtain ⟨v, h', e, r⟩ := (Net.seq id ch).hrun ip hok.nodup hsafe hok.wired hB hx hlt
  have hid : (Net.seq id ch).mod.id = id := by simp only [Net.mod, Sequential.mod]
  exact ⟨v, h', HMod.call_nil e (by rw [Net.hmod_id, r.step.hooks, hid, htop]), fun wrt hc =>
    (r.at hok.nodup hsafe hok.wired hx).pair_jacobian hok hB hx r.out wrt hc⟩

/-- C62: a SkipConnection whose `_F` overwrites its input returns `relu(x)` in place of `x`, followed by `_F(x)`: the concatenation reads `x` after `_F(x)` has
run. -/
theorem C62_skip {a c l id fid : Nat} {r : List Nat} {ch : Chain (a :: r) n (c :: r) k p (l + 1)} (hok : (Net.skip id fid ch).Ok h.view)
    (htop : h.hooks id = []) (how : ch.overwrites ip false = true) (hsafe : ch.SkipsSafe ip) (hlt : x.cell < h.next) (hB : 0 < B)
    (hx : IsBatch (x.get h.mem) B (a :: r) n X) :
    ∃ v h' y Y, ((Net.skip id fid ch).hmod ip).call x h = (.ok v, h') ∧ Returns ((Net.seq fid ch).mod.call (x.get h.mem)) h.view y ∧ IsBatch y B (c :: r) k Y ∧
      IsBatch (v.get h'.mem) B ((a + c) :: r) (n + k) (fun b => Fin.append (fun i => max (X b i) 0) (Y b)) := by
  have hnd := hok.nodup
  simp only [Net.ids] at hnd
  have hw := hok.wired
  simp only [Net.Wired] at hw
  have hokF : (Net.seq fid ch).Ok h.view := ⟨by simp only [Net.ids]; exact (List.nodup_cons.1 hnd).2, by simp only [Net.Wired]; exact ⟨hw.1, hw.2.2⟩⟩
  obtain ⟨v, h1, e, hr⟩ := (Net.seq fid ch).hrun ip (x := x) (h := h) (X := X) hokF.nodup (by simp only [Net.SkipsSafe]; exact hsafe) hokF.wired hB hx hlt
  have hf := hokF.g.forward hokF.w hB hx
  rw [Net.mdl_m, Net.mdl_Y] at hf
  obtain ⟨y, st1, hy, hY, hs, _⟩ := hf
  have hid : (Net.seq fid ch).mod.id = fid := by simp only [Net.mod, Sequential.mod]
  have ec := HMod.call_nil e (by rw [Net.hmod_id, hr.step.hooks, hid]; exact hw.2.1)
  have hx1 : IsBatch (x.get h1.mem) B (a :: r) n fun b => rl true (X b) := by
    refine hx.rl true rfl ?_
    have := hr.mem.xin
    simp only [Net.overwrites, how] at this
    exact this
  obtain ⟨t, ht, hT⟩ := cat2_batch hx1 hr.out hokF.g.hn hokF.g.hk
  have e2 : ((Net.skip id fid ch).hmod ip).forward x h =
      (.ok ⟨h1.next, t.shape⟩, { h1 with mem := fun c => if c = h1.next then t.data else h1.mem c, next := h1.next + 1 }) := by
    simp only [Net.hmod] at ec ⊢
    simp only [HMod.skip, bind, HProg.bind, ec, ht, HProg.alloc]
  have hid' : ((Net.skip id fid ch).hmod ip).id = id := by simp only [Net.hmod, HMod.skip]
  refine ⟨_, _, y, _, HMod.call_nil e2 ?_, ?_, hY, hT.1, fun b i => ?_⟩
  · show h1.hooks _ = []
    rw [hid', hr.step.hooks]; exact htop
  · simp only [Returns, Mod.call]
    rw [Prog.bind_ok hy, Prog.bind_read_run, hs.hooks, hid]
    have : h.view.hooks fid = [] := hw.2.1
    rw [this]
    rfl
  · simp only [Ref.get, if_true]
    exact hT.2 b i

end

/-! ### the hypotheses can be met; a wrong result -/

/-- the example network with all ReLUs in place: memory cell 0 holds the input -/
noncomputable def exMem : HStore ℝ where
  mem c i := if c = 0 then i else 0
  next := 1
  param := exStore.param
  fmaps i := (exStore.fmaps i).map fun _ => []
  pidx := exStore.pidx
  hooks := exStore.hooks

theorem exMem_ok : exNet.Ok exMem.view := by
  refine exNet_ok.of_wiring ⟨fun _ => rfl, rfl, fun i => ?_⟩
  simp only [exMem, HStore.view, Option.isSome_map]

example : ∃ v h', (exNet.hmod fun _ => true).call ⟨0, [2, 2]⟩ exMem = (.ok v, h') ∧ ∃ r r0,
    Returns ((Call.vjp ⟨[2, 1], fun _ => 1⟩ .weight).run exNet.mod (Ref.get h'.mem ⟨0, [2, 2]⟩) (some (v.get h'.mem))) h'.view r ∧
    Returns ((Call.vjp ⟨[2, 1], fun _ => 1⟩ .weight).run exNet.mod exInput none) exMem.view r0 ∧ PEq r r0 := by
  obtain ⟨v, h', e, hp⟩ := C62_products (ip := fun _ => true) (x := ⟨0, [2, 2]⟩) (h := exMem) (X := fun b i => (2 * b + i : ℝ)) exMem_ok
    (by simp [exNet, exMem, exStore, Net.mod, Sequential.mod]) (by simp [exNet, Net.SkipsSafe, Chain.SkipsSafe, Chain.overwrites, Net.overwrites])
    (by simp [exMem]) (by norm_num) exInput_isBatch
  exact ⟨v, h', e, hp (.vjp ⟨[2, 1], fun _ => 1⟩ .weight) rfl trivial⟩

/-- one number in cell 0, for `Sequential(ReLU(inplace=True))` -/
noncomputable def reluMem (a : ℝ) : HStore ℝ where
  mem _ _ := a
  next := 1
  param := reluStore.param
  fmaps i := (reluStore.fmaps i).map fun _ => []
  pidx := reluStore.pidx
  hooks := reluStore.hooks

theorem reluMem_ok (a : ℝ) : reluNet.Ok (reluMem a).view := by
  refine reluNet_ok.of_wiring ⟨fun _ => rfl, rfl, fun i => ?_⟩
  simp only [reluMem, HStore.view, Option.isSome_map]

/-- the caller's tensor is overwritten: -1 becomes 0 -/
example : ∃ v h', (reluNet.hmod fun _ => true).call ⟨0, [1, 1]⟩ (reluMem (-1)) = (.ok v, h') ∧
    IsBatch (Ref.get h'.mem ⟨0, [1, 1]⟩) 1 [1] 1 fun _ _ => 0 := by
  obtain ⟨v, h', y, e, _, _, hx, _⟩ := C62_forward (ip := fun _ => true) (x := ⟨0, [1, 1]⟩) (h := reluMem (-1)) (B := 1) (X := fun _ _ => -1) (reluMem_ok _)
    (by simp [reluNet, reluMem, reluStore, Net.mod, Sequential.mod]) (by simp [reluNet, Net.SkipsSafe, Chain.SkipsSafe]) (by simp [reluMem]) (by norm_num)
    ⟨rfl, fun _ _ => rfl⟩
  refine ⟨v, h', e, hx.congr fun b i => ?_⟩
  have : reluNet.overwrites (fun _ => true) false = true := by simp [reluNet, Net.overwrites, Chain.overwrites, Act.inplace]
  simp [this]

/-- and its Jacobian there is 0, as without `inplace` -/
example : ∃ v h', (reluNet.hmod fun _ => true).call ⟨0, [1, 1]⟩ (reluMem (-1)) = (.ok v, h') ∧ ∃ r r0,
    Returns ((Call.jacobian .input).run reluNet.mod (Ref.get h'.mem ⟨0, [1, 1]⟩) (some (v.get h'.mem))) h'.view r ∧
      Returns ((Call.jacobian .input).run reluNet.mod (num (-1)) none) (reluMem (-1)).view r0 ∧ PEq r r0 := by
  obtain ⟨v, h', e, hp⟩ := C62_jacobian (ip := fun _ => true) (x := ⟨0, [1, 1]⟩) (h := reluMem (-1)) (B := 1) (X := fun _ _ => -1) (reluMem_ok _)
    (by simp [reluMem, reluStore]) (by simp [Net.SkipsSafe, Chain.SkipsSafe]) (by simp [reluMem]) (by norm_num) ⟨rfl, fun _ _ => rfl⟩
  exact ⟨v, h', e, hp .input trivial⟩

/-- `SkipConnection(ReLU(inplace=True))` on one number: `nnj.SkipConnection` wraps its arguments in a Sequential -/
noncomputable def skipNet : Net [1] 1 [1 + 1] (1 + 1) (0 + 0) :=
  .skip 2 0 (a := 1) (c := 1) (r := []) (.snoc (.nil [1] 1 rfl (by norm_num)) (.act .relu 1 [1] 1 rfl (by norm_num)))

theorem skipNet_ok (a : ℝ) : skipNet.Ok (reluMem a).view := by
  refine ⟨by simp only [skipNet, Net.ids, Chain.ids]; decide, ?_⟩
  simp [skipNet, Net.Wired, Chain.Wired, reluMem, HStore.view, reluStore, Net.mod, Activation.toMod, PureLayer.toMod]

/-- C62, the wrong result: `SkipConnection(ReLU(inplace=True))(-1)` is `(0, 0)`; without `inplace` it is `(-1, 0)`. -/
theorem C62_skip_wrong : ∃ v h' y, (skipNet.hmod fun _ => true).call ⟨0, [1, 1]⟩ (reluMem (-1)) = (.ok v, h') ∧
    IsBatch (v.get h'.mem) 1 [2] 2 (fun _ => ![0, 0]) ∧ Returns (skipNet.mod.call (num (-1))) (reluMem (-1)).view y ∧ IsBatch y 1 [2] 2 (fun _ => ![-1, 0]) := by
  obtain ⟨v, h', y, Y, e, hy, hY, hv⟩ := C62_skip (ip := fun _ => true) (x := ⟨0, [1, 1]⟩) (h := reluMem (-1)) (B := 1) (X := fun _ _ => -1) (skipNet_ok _)
    (by simp [reluMem, reluStore]) (by simp [Chain.overwrites, Net.overwrites, Act.inplace]) (by simp [Chain.SkipsSafe, Net.SkipsSafe])
    (by simp [reluMem]) (by norm_num) ⟨rfl, fun _ _ => rfl⟩
  have hf := (reluMem_ok (-1)).g.forward (reluMem_ok (-1)).w Nat.one_pos (num_isBatch (-1))
  rw [Net.mdl_m, Net.mdl_Y] at hf
  obtain ⟨y1, st1, hy1, hY1, hs1, _⟩ := hf
  have hy1' : Returns (reluNet.mod.call (num (-1))) (reluMem (-1)).view y1 := by
    simp only [Returns, Mod.call]
    rw [Prog.bind_ok hy1, Prog.bind_read_run, hs1.hooks]
    rfl
  have hyy : y = y1 := by
    have h1 := hy.symm.trans hy1'
    injection h1
  have hY0 : ∀ b i, Y b i = 0 := by
    intro b i
    rw [← hY.2 b i, hyy, hY1.2 b i]
    simp [reluNet, Net.sem, Chain.sem, Sem.comp, Sem.id, Act.sem, Sem.leaf0, Sem.leaf, Act.fn]
  have hg := (skipNet_ok (-1)).g.forward (skipNet_ok (-1)).w Nat.one_pos (num_isBatch (-1))
  rw [Net.mdl_m, Net.mdl_Y] at hg
  obtain ⟨y2, st2, hy2, hY2, hs2, _⟩ := hg
  refine ⟨v, h', y2, e, hv.congr fun b i => ?_, ?_, hY2.congr fun b i => ?_⟩
  · refine Fin.addCases (fun j => ?_) (fun j => ?_) i
    · rw [Fin.append_left]
      fin_cases j
      simp
    · rw [Fin.append_right, hY0]
      fin_cases j
      simp
  · simp only [Returns, Mod.call]
    rw [Prog.bind_ok hy2, Prog.bind_read_run, hs2.hooks]
    rfl
  · simp only [skipNet, Net.sem, Sem.skip]
    refine Fin.addCases (fun j => ?_) (fun j => ?_) i
    · rw [Fin.append_left]
      fin_cases j
      simp
    · rw [Fin.append_right]
      fin_cases j
      simp [Chain.sem, Net.sem, Sem.comp, Sem.id, Act.sem, Sem.leaf0, Sem.leaf, Act.fn]

end NNJ.Props
