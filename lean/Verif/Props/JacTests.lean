import Verif.Proofs.JacTestsSuite
import Verif.Spec.Example
import Verif.Props.History

/-!
# C65: the repository's tests of `jacobian` (tests/jacobians.py)

`jacInput` and `jacWeight` are the two test functions on one layer and one input.  The reference is torch's autograd: `Net.autograd` is the
backward pass of a network (C56); for other layers it is any `Autograd`.
-/

namespace NNJ.Props
open NNJ Tensor Matrix Tests

section
variable {s s' : List Nat} {n k p B : Nat} {N : Net s n s' k p} {st : Store ℝ} {X : Fin B → Fin n → ℝ} {x : Tensor ℝ} {buf : Grads}

/-- C65: the test of `jacobian(x, None, "input")` passes if all entries are close to autograd's, else it raises AssertionError. -/
theorem C65_input (h : N.Ok st) (htop : st.hooks N.mod.id = []) (hB : 0 < B) (hx : IsBatch x B s n X) :
    (N.NearInput st X → ∃ st', jacInput N.mod N.autograd x st = (.ok (), st') ∧ st'.param = st.param ∧ st'.hooks = st.hooks ∧ N.Ok st') ∧
    (¬ N.NearInput st X → (jacInput N.mod N.autograd x st).1 = .error .assertion) := by
  obtain ⟨st', S, h1, h2⟩ := jacInput_net h htop hB hx
  exact ⟨fun hn => ⟨st', h1 hn, S.step.param, S.step.hooks, S.ok⟩, fun hn => by rw [h2 hn]⟩

/-- C65: so does the test of `jacobian(x, None, "weight")`, for networks with parameters, each used once, whose gradients are absent or zero before the
test; they are so after it. -/
theorem C65_weight (h : N.Ok st) (htop : st.hooks N.mod.id = []) (hB : 0 < B) (hx : IsBatch x B s n X) (hp : 0 < p) (hn : N.mod.params.Nodup)
    (hb : buf.Clean st N.mod.params) :
    (N.NearWeight st X → ∃ buf' st', jacWeight N.mod N.autograd x buf st = (.ok buf', st') ∧ buf'.Clean st N.mod.params ∧
      st'.param = st.param ∧ st'.hooks = st.hooks ∧ N.Ok st') ∧
    (¬ N.NearWeight st X → (jacWeight N.mod N.autograd x buf st).1 = .error .assertion) := by
  obtain ⟨st', buf', S, hc, h1, h2⟩ := jacWeight_net h htop hB hx (List.Subset.refl _) hp hn hb
  exact ⟨fun hn => ⟨buf', st', h1 hn, hc, S.step.param, S.step.hooks, S.ok⟩, fun hn => by rw [h2 hn]⟩

/-- C65: they pass when `jacobian` is what autograd computes: no Softplus unit is above its threshold and the L2Norm layers have eps = 0. -/
theorem C65_near (hu : ∀ b, N.Unsaturated (N.w st) (X b)) : N.NearInput st X ∧ N.NearWeight st X := near_unsaturated hu

/-- C65: on a network without parameters the test wrt the weights passes; the gradients are not touched. -/
theorem C65_none (h : N.Ok st) (htop : st.hooks N.mod.id = []) (hB : 0 < B) (hx : IsBatch x B s n X) (hp : p = 0) (hw : N.FwdW) :
    ∃ st', jacWeight N.mod N.autograd x buf st = (.ok buf, st') ∧ st'.param = st.param ∧ st'.hooks = st.hooks ∧ N.Ok st' := by
  obtain ⟨st', S, e⟩ := jacWeight_net_none (buf := buf) h htop hB hx hp hw
  exact ⟨st', e, S.step.param, S.step.hooks, S.ok⟩

/-- C65: with a parameter that two layers share, the test wrt the weights raises RuntimeError: `layer.parameters()` yields it once, `layer._n_params` counts
it twice, so the row of gradients does not fit. -/
theorem C65_shared (h : N.Ok st) (htop : st.hooks N.mod.id = []) (hB : 0 < B) (hx : IsBatch x B s n X) (hp : 0 < p) (hn : ¬ N.mod.params.Nodup)
    (h1 : totalSize (fun i => (st.param i).shape) N.mod.parameters ≠ 1) (hb : buf.Clean st N.mod.params) :
    (jacWeight N.mod N.autograd x buf st).1 = .error .shape :=
  jacWeight_net_shared h htop hB hx hp hn h1 hb

/-- C65: any sequence of these tests on any networks in one program passes, whatever the earlier ones left behind in feature maps and gradients; networks may
share layers. -/
theorem C65_suite (js : List JacJob) {ps : List Nat} (h : ∀ j ∈ js, j.Ready st ps) (hb : buf.Clean st ps) :
    ∃ buf' st', runJac js buf st = (.ok buf', st') ∧ buf'.Clean st ps ∧ st'.param = st.param ∧ st'.hooks = st.hooks :=
  runJac_run js h hb

/-- C65: a Softplus layer with a threshold of at least 10 (torch's default is 20) passes at every input, also above the threshold. -/
theorem C65_softplus (beta thr : ℝ) (ht : 10 ≤ thr) (id : Nat) (hs : size s = n) (hn : 0 < n) : (Net.act (.softplus beta thr) id s n hs hn).NearInput st X :=
  near_softplus beta thr ht id hs hn

/-- C65: an L2Norm layer passes at every input whose norm is not small against the root of eps ... -/
theorem C65_l2norm (eps : ℝ) (h0 : 0 ≤ eps) (id : Nat) (hs : size s = n) (hl : s.length ≤ 8) (hn : 0 < n) (hr : ∀ b, norm2 (X b) ≠ 0 ∧ eps ≤ 1 / 10000 * norm2 (X b) ^ 2) :
    (Net.l2norm id eps s n hs hl hn).NearInput st X := near_l2norm eps h0 id hs hl hn hr

/-- C65: ... but it fails at every input of one entry of absolute value eps, for an eps below 1000. -/
theorem C65_l2norm_fails (eps : ℝ) (h0 : 0 < eps) (h1 : eps < 1000) (id : Nat) (hs : size s = 1) (hl : s.length ≤ 8) {X : Fin B → Fin 1 → ℝ} (b : Fin B)
    (hb : |X b 0| = eps) : ¬ (Net.l2norm id eps s 1 hs hl Nat.one_pos).NearInput st X := not_near_l2norm eps h0 h1 id hs hl b hb

end

/-! The tests detect: for *any* module `L` whose methods return in the states satisfying `I`, and any gradients `ag`. -/

section
variable {s s' : List Nat} {n k p B : Nat} {L : Mod ℝ} {ag : Autograd} {I : Store ℝ → Prop} {x : Tensor ℝ} {X : Fin B → Fin n → ℝ} {Y : Fin B → Fin k → ℝ}

/-- C65: the test wrt the input compares the shape and all entries -/
theorem C65_detects_input {j : Tensor ℝ} {G : Fin B → Matrix (Fin k) (Fin n) ℝ} (hs' : size s' = k) (hs : size s = n) (hB : 0 < B) (hx : IsBatch x B s n X) {st : Store ℝ} (hI : I st)
    (hc : ∀ st, I st → ∃ y st', L.call x st = (.ok y, st') ∧ IsBatch y B s' k Y ∧ I st')
    (hj : ∀ st, I st → ∃ st', L.jacobian x none .input st = (.ok (some j), st') ∧ I st')
    (hv : ∀ (o : Fin k) v st, I st → IsBatch v B s' k (fun _ => Pi.single o 1) → ∃ r st', ag.vjp x v st = (.ok r, st') ∧ IsBatch r B s n (fun b => G b o) ∧ I st') :
    ∃ st', I st' ∧ Verdict (jacInput L ag x st) st' (NearMat j B k n G) := by
  obtain ⟨j', st', hj', hI', h⟩ := jacInput_run (I := I) (J := (· = j)) hs' hs hB hx (hc st hI)
    (fun st hI => (let ⟨st', e, hi⟩ := hj st hI; ⟨some j, st', e, rfl, hi⟩)) hv
  exact ⟨st', hI', hj' ▸ h⟩

/-- C65: the test wrt the weights compares the shape and all entries; `sh` are the shapes of the parameters -/
theorem C65_detects_weight {j : Tensor ℝ} {G : Fin B → Matrix (Fin k) (Fin p) ℝ} {sh : Nat → List Nat} {buf : Grads} (hs' : size s' = k) (hs : size s = n) (hB : 0 < B) (hx : IsBatch x B s n X)
    {st : Store ℝ} (hI : I st) (hL : L.nParams = p) (hp : totalSize sh L.params = p) (hp0 : 0 < p) (hn : L.params.Nodup)
    (hc : ∀ st, I st → ∃ y st', L.call x st = (.ok y, st') ∧ IsBatch y B s' k Y ∧ I st')
    (hj : ∀ st, I st → ∃ st', L.jacobian x none .weight st = (.ok (some j), st') ∧ I st')
    (hc1 : ∀ (b : Fin B) x1 st, I st → IsBatch x1 1 s n (fun _ => X b) → ∃ y st', L.call x1 st = (.ok y, st') ∧ y.shape = 1 :: s' ∧ I st')
    (hg : ∀ (b : Fin B) (o : Fin k) x1 st, I st → IsBatch x1 1 s n (fun _ => X b) → ∃ gs st', ag.grads x1 o st = (.ok gs, st') ∧
      (List.Forall₂ (fun i g => g.shape = sh i) L.params gs ∧ ∀ j : Fin p, catAt gs j = G b o j) ∧ I st')
    (hb : ∀ i ∈ L.params, buf i = none ∨ buf i = some (zeros (sh i))) :
    ∃ st', I st' ∧ (NearMat j B k p G → ∃ buf', jacWeight L ag x buf st = (.ok buf', st') ∧ ∀ i ∈ L.params, buf' i = none ∨ buf' i = some (zeros (sh i))) ∧
      (¬ NearMat j B k p G → jacWeight L ag x buf st = (.error .assertion, st')) := by
  obtain ⟨j', st', buf', hj', hI', hb', h1, h2⟩ := jacWeight_run (I := I) (J := (· = j)) hs' hs hB hx (List.Subset.refl _) hn hL hp hp0 (hc st hI)
    (fun st hI => (let ⟨st', e, hi⟩ := hj st hI; ⟨some j, st', e, rfl, hi⟩)) hc1 hg hb
  subst hj'
  exact ⟨st', hI', fun h => ⟨buf', h1 h, hb'⟩, h2⟩

end

/-! ### cases -/

/-- no gradients yet -/
def noGrads : Grads := fun _ => none
theorem noGrads_clean {st : Store ℝ} {is : List Nat} : noGrads.Clean st is := fun _ _ => .inl rfl

theorem exNet_near : exNet.NearInput exStore (fun (b : Fin 2) i => (2 * b + i : ℝ)) ∧ exNet.NearWeight exStore (fun (b : Fin 2) i => (2 * b + i : ℝ)) :=
  C65_near fun b => by simp [exNet, Net.Unsaturated, Chain.Unsaturated, Act.Below]

theorem exNet_top : exStore.hooks exNet.mod.id = [] := by simp [exNet, Net.mod, Sequential.mod, exStore]

theorem exNet_nodup : exNet.mod.params.Nodup := by
  rw [exNet.mod_params]
  simp only [exNet, Net.paramIds, Chain.paramIds]
  decide

example : ∃ st', jacInput exNet.mod exNet.autograd exInput exStore = (.ok (), st') := by
  obtain ⟨st', e, _⟩ := (C65_input exNet_ok exNet_top two_pos exInput_isBatch).1 exNet_near.1
  exact ⟨st', e⟩

example : ∃ buf' st', jacWeight exNet.mod exNet.autograd exInput noGrads exStore = (.ok buf', st') := by
  obtain ⟨buf', st', e, _⟩ := (C65_weight exNet_ok exNet_top two_pos exInput_isBatch (by norm_num) exNet_nodup noGrads_clean).1 exNet_near.2
  exact ⟨buf', st', e⟩

/-- both tests, twice -/
noncomputable def exJac (weight : Bool) : JacJob := ⟨exNet, exInput, fun (b : Fin 2) i => (2 * b + i : ℝ), weight⟩

example : ∃ buf' st', runJac [exJac false, exJac true, exJac true, exJac false] noGrads exStore = (.ok buf', st') := by
  have h : ∀ w, (exJac w).Ready exStore exNet.mod.params := fun w => by
    refine ⟨exNet_ok, exNet_top, two_pos, exInput_isBatch, List.Subset.refl _, ?_⟩
    cases w
    · exact exNet_near.1
    · exact ⟨exNet_nodup, exNet_near.2⟩
  obtain ⟨buf', st', e, _⟩ := C65_suite [exJac false, exJac true, exJac true, exJac false] (st := exStore) (fun j hj => by
    simp only [List.mem_cons, List.not_mem_nil, or_false] at hj
    rcases hj with rfl | rfl | rfl | rfl <;> exact h _) (noGrads_clean (is := exNet.mod.params))
  exact ⟨buf', st', e⟩

/-- an activation: nothing to test wrt the weights -/
example (st : Store ℝ) (hh : st.hooks 0 = []) : ∃ st', jacWeight (Net.act .tanh 0 [1] 1 rfl Nat.one_pos).mod (Net.act .tanh 0 [1] 1 rfl Nat.one_pos).autograd (num 3) noGrads st =
    (.ok noGrads, st') := by
  obtain ⟨st', e, _⟩ := C65_none (buf := noGrads) (actNet_ok (s := [1]) (n := 1) .tanh 0 rfl Nat.one_pos st) hh Nat.one_pos (num_isBatch 3) rfl (by simp [Net.FwdW])
  exact ⟨st', e⟩

/-- `Sequential(Linear(2, 2, bias=False), Linear(2, 2, bias=False))` with one weight for both layers -/
noncomputable def tiedNet : Net [2] 2 [2] 2 (0 + (2 * 2 + 0) + (2 * 2 + 0)) :=
  .seq 0 (.snoc (.snoc (.nil [2] 2 rfl (by norm_num)) (.linear 1 0 none 2 2 (by norm_num) (by norm_num))) (.linear 2 0 none 2 2 (by norm_num) (by norm_num)))
noncomputable def tiedStore : Store ℝ where
  param _ := ⟨[2, 2], fun _ => 1⟩
  fmaps i := if i = 0 then some [] else none
  pidx _ := none
  hooks i := if i = 1 ∨ i = 2 then [0] else []
theorem tiedNet_ok : tiedNet.Ok tiedStore := by
  refine ⟨by simp only [tiedNet, Net.ids, Chain.ids]; decide, ?_⟩
  simp [tiedNet, Net.Wired, Chain.Wired, tiedStore, Net.mod, Linear.mod, PureLayer.toMod]

example : (jacWeight tiedNet.mod tiedNet.autograd exInput noGrads tiedStore).1 = .error .shape := by
  have hp : tiedNet.mod.params = [0, 0] := by
    rw [tiedNet.mod_params]
    simp only [tiedNet, Net.paramIds, Chain.paramIds]
    rfl
  refine C65_shared tiedNet_ok (by simp [tiedNet, Net.mod, Sequential.mod, tiedStore]) two_pos exInput_isBatch (by norm_num) (by rw [hp]; decide) ?_ noGrads_clean
  rw [Mod.parameters, hp]
  simp [totalSize, dedupFirst, tiedStore, size]

/-- Softplus at 21: `jacobian` returns `1 / (1 + exp(-21))`, autograd 1 -/
example (st : Store ℝ) (hh : st.hooks 0 = []) :
    ∃ st', jacInput (Net.act (.softplus 1 20) 0 [1] 1 rfl Nat.one_pos).mod (Net.act (.softplus 1 20) 0 [1] 1 rfl Nat.one_pos).autograd (num 21) st = (.ok (), st') := by
  obtain ⟨st', e, _⟩ := (C65_input (actNet_ok (s := [1]) (n := 1) (.softplus 1 20) 0 rfl Nat.one_pos st) hh Nat.one_pos (num_isBatch 21)).1 (C65_softplus (s := [1]) (n := 1) 1 20 (by norm_num) 0 rfl Nat.one_pos)
  exact ⟨st', e⟩

/-- L2Norm with the default eps at 1 and at 1e-6 -/
example (st : Store ℝ) (hh : st.hooks 0 = []) :
    ∃ st', jacInput (Net.l2norm 0 (1 / 1000000) [1] 1 rfl (by norm_num) Nat.one_pos).mod (Net.l2norm 0 (1 / 1000000) [1] 1 rfl (by norm_num) Nat.one_pos).autograd (num 1) st = (.ok (), st') := by
  obtain ⟨st', e, _⟩ := (C65_input (l2Net_ok (s := [1]) (n := 1) (1 / 1000000) 0 rfl (show [1].length ≤ 8 by norm_num) Nat.one_pos st) (by simp only [Net.mod]; exact hh) Nat.one_pos (num_isBatch 1)).1
    (C65_l2norm (s := [1]) (n := 1) (1 / 1000000) (by norm_num) 0 rfl (by norm_num) Nat.one_pos fun b => by norm_num [norm2])
  exact ⟨st', e⟩

example (st : Store ℝ) (hh : st.hooks 0 = []) :
    (jacInput (Net.l2norm 0 (1 / 1000000) [1] 1 rfl (by norm_num) Nat.one_pos).mod (Net.l2norm 0 (1 / 1000000) [1] 1 rfl (by norm_num) Nat.one_pos).autograd (num (1 / 1000000)) st).1 =
      .error .assertion :=
  (C65_input (l2Net_ok (s := [1]) (n := 1) (1 / 1000000) 0 rfl (show [1].length ≤ 8 by norm_num) Nat.one_pos st) (by simp only [Net.mod]; exact hh) Nat.one_pos (num_isBatch (1 / 1000000))).2
    (C65_l2norm_fails (1 / 1000000) (by norm_num) (by norm_num) 0 rfl (by norm_num) 0 (by norm_num))

/-- a layer whose Jacobians are 2, with gradients 1 -/
noncomputable def badJac : Mod ℝ := { exNet.mod with
  id := 9
  nParams := 1
  params := [0]
  forward := fun _ => pure ⟨[1, 1], fun _ => 7⟩
  jacobian := fun _ _ _ => pure (some ⟨[1, 1, 1], fun _ => 2⟩) }
def onesGrad : Autograd where
  vjp _ _ := pure ⟨[1, 1], fun _ => 1⟩
  grads _ _ := pure [⟨[1], fun _ => 1⟩]

theorem badJac_call {x : Tensor ℝ} {st : Store ℝ} (h : st.hooks 9 = []) : badJac.call x st = (.ok ⟨[1, 1], fun _ => 7⟩, st) := by
  simp only [Mod.call, badJac, Prog.bind_pure_run, Prog.bind_read_run, h]
  rfl

/-- and one whose Jacobian has a wrong shape, with the right entries -/
noncomputable def longJac : Mod ℝ := { badJac with jacobian := fun _ _ _ => pure (some ⟨[1, 1, 1, 1], fun _ => 1⟩) }

theorem longJac_call {x : Tensor ℝ} {st : Store ℝ} (h : st.hooks 9 = []) : longJac.call x st = (.ok ⟨[1, 1], fun _ => 7⟩, st) := badJac_call (x := x) h

example (st : Store ℝ) (hh : st.hooks 9 = []) : jacInput badJac onesGrad (num 5) st = (.error .assertion, st) := by
  obtain ⟨st', rfl, h⟩ := C65_detects_input (L := badJac) (ag := onesGrad) (I := fun s => s = st) (s' := [1]) (s := [1]) (n := 1) (k := 1) (Y := fun _ _ => 7) (G := fun _ => .of fun _ _ => 1) rfl rfl
    Nat.one_pos (num_isBatch 5) rfl (fun s hs => ⟨_, s, badJac_call (by rw [hs]; exact hh), ⟨rfl, fun _ _ => rfl⟩, hs⟩)
    (fun s hs => ⟨s, rfl, hs⟩) (fun o v s hs _ => ⟨_, s, rfl, ⟨rfl, fun _ _ => rfl⟩, hs⟩)
  refine h.2 fun h => ?_
  have := h.2 0 0 0
  norm_num [Near, Tensor.get] at this

example (st : Store ℝ) (hh : st.hooks 9 = []) : jacInput longJac onesGrad (num 5) st = (.error .assertion, st) := by
  obtain ⟨st', rfl, h⟩ := C65_detects_input (L := longJac) (ag := onesGrad) (I := fun s => s = st) (s' := [1]) (s := [1]) (n := 1) (k := 1) (Y := fun _ _ => 7) (G := fun _ => .of fun _ _ => 1) rfl rfl
    Nat.one_pos (num_isBatch 5) rfl (fun s hs => ⟨_, s, longJac_call (by rw [hs]; exact hh), ⟨rfl, fun _ _ => rfl⟩, hs⟩)
    (fun s hs => ⟨s, rfl, hs⟩) (fun o v s hs _ => ⟨_, s, rfl, ⟨rfl, fun _ _ => rfl⟩, hs⟩)
  exact h.2 fun h => by simpa using h.1

example (st : Store ℝ) (hh : st.hooks 9 = []) : jacWeight badJac onesGrad (num 5) noGrads st = (.error .assertion, st) := by
  obtain ⟨st', rfl, _, h⟩ := C65_detects_weight (L := badJac) (ag := onesGrad) (I := fun s => s = st) (s' := [1]) (s := [1]) (n := 1) (k := 1) (p := 1) (sh := fun _ => [1]) (Y := fun _ _ => 7)
    (G := fun _ => .of fun _ _ => 1) (buf := noGrads) rfl rfl Nat.one_pos (num_isBatch 5) rfl rfl rfl Nat.one_pos
    (by simp [badJac]) (fun s hs => ⟨_, s, badJac_call (by rw [hs]; exact hh), ⟨rfl, fun _ _ => rfl⟩, hs⟩)
    (fun s hs => ⟨s, rfl, hs⟩) (fun b x1 s hs _ => ⟨_, s, badJac_call (by rw [hs]; exact hh), rfl, hs⟩)
    (fun b o x1 s hs _ => ⟨_, s, rfl, ⟨.cons rfl .nil, fun j => by simp [catAt, numel, size]⟩, hs⟩) (fun _ _ => .inl rfl)
  refine h fun h => ?_
  have := h.2 0 0 0
  norm_num [Near, Tensor.get] at this

end NNJ.Props
