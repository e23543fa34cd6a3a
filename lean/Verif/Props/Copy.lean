import Verif.Proofs.Copy
import Verif.Props.History
import Verif.Props.Append

/-!
# C54: `copy.deepcopy(model)`

Deep-copying a model copies its layers, parameters and cached feature maps, but the forward hooks of the copied layers are the same
function objects as before, and those append to the feature maps of the *original* Sequential (nnj/sequential.py:25-28).
-/

namespace NNJ.Props
open NNJ Matrix Tensor

variable {φ ψ : Nat → Nat} {s s' : List Nat} {n k p l B id : Nat} {N : Net s n s' k p} {st st' : Store ℝ} {x : Tensor ℝ} {X : Fin B → Fin n → ℝ}
variable {c : Chain s n s' k p (l + 1)}

/-- `forward`, `jvp` and `jmp` of the copy do exactly what those of the original do, whatever the arguments: they return the same or raise the
same exception. -/
theorem C54_forward_mode (hc : DeepCopied φ ψ N st st') (h : N.Ok st) (htop : st.hooks N.mod.id = []) (x : Tensor ℝ) (val : Option (Tensor ℝ))
    (cl : Call) (hcl : cl.Forwards) : (cl.run (N.rename φ ψ).mod x val st').1 = (cl.run N.mod x val st).1 := by
  obtain ⟨q, hq, hq'⟩ := exists_fresh φ N.ids
  exact ((hc.fwd h hq').run x val cl hcl st st' (hc.simF h htop hq)).1.symm

/-- So do the backward passes that are given `val`: the cached feature maps have been copied. -/
theorem C54_val (hc : DeepCopied φ ψ N st st') (x val : Tensor ℝ) (cl : Call) (hcl : cl.Backwards) :
    (cl.run (N.rename φ ψ).mod x (some val) st').1 = (cl.run N.mod x (some val) st).1 :=
  ((N.bwdSim (fun _ h => h) (fun _ h => h)).run x val cl hcl st st' hc.simB).1.symm

/-- But every backward pass of a copied Sequential that makes its own forward pass raises IndexError (given arguments its asserts accept). -/
theorem C54_backward (hc : DeepCopied φ ψ (Net.seq id c) st st') (h : (Net.seq id c).Ok st) (htop : st.hooks id = []) (hB : 0 < B)
    (hx : IsBatch x B s n X) (cl : Call) (hr : cl.ReadsLast) (ha : cl.PassesAsserts) :
    (cl.run ((Net.seq id c).rename φ ψ).mod x none st').1 = .error .index := by
  obtain ⟨y, hy, hY⟩ := h.forward hB hx
  obtain ⟨h1, h2⟩ := hc.forward h htop x
  have hy' : (Sequential.forward id true c.mods x st).1 = .ok y := by
    have := hy; simp only [Net.mod, Sequential.mod] at this; exact this
  rw [hy'] at h1
  have hf : Sequential.forward (φ id) true (c.rename φ ψ).mods x st' = (.ok y, (Sequential.forward (φ id) true (c.rename φ ψ).mods x st').2) := by
    rw [← h1]
  simp only [Net.rename, Net.mod]
  rw [← C53_unedited]
  exact short_call (K := l) hf ⟨[x], h2, by simp⟩ ((c.rename φ ψ).len_mods) (by rw [hY.1]; simp) cl hr ha

/-- And each forward pass of the copy appends to the feature maps of the original Sequential, one per layer. -/
theorem C54_leak (hc : DeepCopied φ ψ (Net.seq id c) st st') (h : (Net.seq id c).Ok st) (htop : st.hooks id = []) (hB : 0 < B)
    (hx : IsBatch x B s n X) :
    ∃ L E, st'.fmaps id = some L ∧ (((Net.seq id c).rename φ ψ).mod.forward x st').2.fmaps id = some (L ++ E) ∧ E.length = l + 1 := by
  have htop' : st.hooks (Net.seq id c).mod.id = [] := by simpa only [Net.mod, Sequential.mod] using htop
  have hnd := h.nodup
  simp only [Net.ids, List.nodup_cons] at hnd
  have hw := h.wired
  simp only [Net.Wired] at hw
  have hid : id ∈ (Net.seq id c).ids := by simp [Net.ids]
  have hsub : ∀ i ∈ c.ids, i ∈ (Net.seq id c).ids := fun i hi => by simp [Net.ids, hi]
  have hpar : ∀ m ∈ c.mods, ∀ i ∈ m.params, i ∈ (Net.seq id c).mod.params := fun m hm i hi => by
    simp only [Net.mod, Sequential.mod, List.mem_flatten, List.mem_map]; exact ⟨_, ⟨m, hm, rfl⟩, hi⟩
  obtain ⟨y, hy, -⟩ := h.forward hB hx
  obtain ⟨h1, -⟩ := hc.forward h htop x
  have hy' : (Sequential.forward id true c.mods x st).1 = .ok y := by
    have := hy; simp only [Net.mod, Sequential.mod] at this; exact this
  rw [hy'] at h1
  obtain ⟨q, hq, hq'⟩ := exists_fresh φ (Net.seq id c).ids
  have hne : id ≠ φ id := fun e => hc.new id hid (e ▸ hid)
  obtain ⟨L, hL⟩ := Option.isSome_iff_exists.1 hw.1
  have hL' : st'.fmaps id = some L := by rw [(hc.old hid).1]; exact hL
  have hS := hc.simF h htop' hq
  obtain ⟨E, hE, hfm⟩ := copied_run (φ := φ) (ψ := ψ) (id := id) (A := (· ∈ (Net.seq id c).ids)) (P := (· ∈ (Net.seq id c).mod.params)) (q0 := q)
    (L0 := st'.fmaps q) (fun i j hi hj => hc.inj i hi j hj) c hsub hpar hnd.2
    (fun i hi => ⟨fun e => hc.new i (hsub i hi) (e ▸ hid), hq' i (hsub i hi)⟩) hnd.1 (st := st) (s1 := st)
    (t1 := { st' with fmaps := fun j => if j = φ id then some [x] else st'.fmaps j }) hw.2 (fun i hi => hc.hooks i (hsub i hi))
    (by
      refine ⟨hS.param, hS.pidx, hS.left, fun i hi j hj => ⟨?_, (hS.right i hi j hj).2⟩, (if_neg (Ne.symm (hq' id hid))).trans rfl⟩
      have := (hS.right i hi j hj).1
      by_cases e : j = φ id
      · simp [e]
      · simpa [e] using this)
    ((if_neg hne).trans hL') x y h1
  refine ⟨L, E, hL', ?_, hE⟩
  simp only [Net.rename, Net.mod, Sequential.mod]
  exact hfm

/-- Whatever is done with the copy afterwards, including `set_weight`, the original computes what it computed before. -/
theorem C54_original (hc : DeepCopied φ ψ N st st') (h : N.Ok st) (es : List Event) (hB : 0 < B) (hx : IsBatch x B s n X) (cl : Call)
    (hcl : cl.Valid N B) :
    let after := runHistory (es.map fun e => (⟨N.rename φ ψ⟩, e)) st'
    (∀ i ∈ N.mod.params, after.param i = st.param i) ∧
      ∃ r r0, Returns (cl.run N.mod x none) after r ∧ Returns (cl.run N.mod x none) st r0 ∧ PEq r r0 := by
  intro after
  have hp : ∀ i ∈ N.paramIds, after.param i = st.param i := fun i hi => (hc.history_param es st' hi).trans (hc.oldParam hi)
  exact ⟨fun i hi => hp i (by rwa [← N.mod_params]), C17_history (hc.ok h) _ hB hx cl hcl h fun i hi => by
    rw [show (runHistory _ st').param i = st.param i from hp i hi]; exact ⟨rfl, fun _ _ => rfl⟩⟩

/-! ### Examples -/

/-- the state after a deepcopy whose new objects are numbered from `d` on -/
noncomputable def copyStore (N : Net s n s' k p) (d : Nat) (st : Store ℝ) : Store ℝ where
  param j := if d ≤ j ∧ j - d ∈ N.mod.params then st.param (j - d) else st.param j
  fmaps j := if d ≤ j ∧ j - d ∈ N.ids then st.fmaps (j - d) else st.fmaps j
  pidx j := if d ≤ j ∧ j - d ∈ N.ids then st.pidx (j - d) else st.pidx j
  hooks j := if d ≤ j ∧ j - d ∈ N.ids then st.hooks (j - d) else st.hooks j

theorem copyStore_copied (N : Net s n s' k p) {d : Nat} (st : Store ℝ) (hi : ∀ i ∈ N.ids, i < d) (hp : ∀ i ∈ N.mod.params, i < d) :
    DeepCopied (· + d) (· + d) N st (copyStore N d st) where
  inj i _ j _ h := by simpa using h
  new i _ h := by have := hi _ h; omega
  newParam i _ h := by have := hp _ h; omega
  param i h := by simp [copyStore, h]
  fmaps i h := by simp [copyStore, h]
  pidx i h := by simp [copyStore, h]
  hooks i h := by simp [copyStore, h]
  rest j h := by
    have : ¬ (d ≤ j ∧ j - d ∈ N.ids) := fun hj => h _ hj.2 (by omega)
    simp [copyStore, this]
  restParam j h := by
    have : ¬ (d ≤ j ∧ j - d ∈ N.mod.params) := fun hj => h _ hj.2 (by omega)
    simp [copyStore, this]

theorem exNet_copied : DeepCopied (· + 100) (· + 100) exNet exStore (copyStore exNet 100 exStore) := by
  refine copyStore_copied _ _ ?_ ?_
  · simp only [exNet, Net.ids, Chain.ids]; decide
  · rw [exNet.mod_params]; simp only [exNet, Net.paramIds, Chain.paramIds]; decide

example : ((Call.forward).run (exNet.rename (· + 100) (· + 100)).mod exInput none (copyStore exNet 100 exStore)).1 = ((Call.forward).run exNet.mod exInput none exStore).1 :=
  C54_forward_mode exNet_copied exNet_ok (by simp [exNet, exStore, Net.mod, Sequential.mod]) exInput none .forward trivial

theorem relu_copied : DeepCopied (· + 100) (· + 100) (Net.seq 0 reluChain) doubleStore (copyStore (Net.seq 0 reluChain) 100 doubleStore) := by
  refine copyStore_copied _ _ ?_ ?_
  · simp only [reluChain, Net.ids, Chain.ids]; decide
  · rw [Net.mod_params]; simp only [reluChain, Net.paramIds, Chain.paramIds]; decide

/-- `copy.deepcopy(Sequential(ReLU())).vjp(x, None, v, wrt="input")` raises IndexError -/
example : ((Call.vjp (num 1) .input).run ((Net.seq 0 reluChain).rename (· + 100) (· + 100)).mod (num 1) none
    (copyStore (Net.seq 0 reluChain) 100 doubleStore)).1 = .error .index :=
  C54_backward relu_copied reluChain_ok rfl Nat.one_pos (num_isBatch 1) _ trivial (Or.inl rfl)

example : ∃ L E, (copyStore (Net.seq 0 reluChain) 100 doubleStore).fmaps 0 = some L ∧
    (((Net.seq 0 reluChain).rename (· + 100) (· + 100)).mod.forward (num 1) (copyStore (Net.seq 0 reluChain) 100 doubleStore)).2.fmaps 0 = some (L ++ E) ∧
    E.length = 1 :=
  C54_leak relu_copied reluChain_ok rfl Nat.one_pos (num_isBatch 1)

example (w : Tensor ℝ) : ∃ r r0, Returns ((Call.vjp ⟨[2, 1], fun _ => 1⟩ .weight).run exNet.mod exInput none)
      (runHistory ([.setWeight w, .call exInput].map fun e => (⟨exNet.rename (· + 100) (· + 100)⟩, e)) (copyStore exNet 100 exStore)) r ∧
    Returns ((Call.vjp ⟨[2, 1], fun _ => 1⟩ .weight).run exNet.mod exInput none) exStore r0 ∧ PEq r r0 :=
  (C54_original exNet_copied exNet_ok [.setWeight w, .call exInput] (by norm_num) exInput_isBatch (.vjp ⟨[2, 1], fun _ => 1⟩ .weight) rfl).2

end NNJ.Props
