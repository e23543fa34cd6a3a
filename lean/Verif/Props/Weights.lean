import Verif.Proofs.Weights
import Verif.Proofs.DerivL2
import Verif.Spec.Example

/-!
# C20, C21, C02: weights

`N.paramIds.Nodup`: no `nn.Parameter` object is shared by two layers of the network.
-/

namespace NNJ
namespace Props
open Matrix

variable {s s' : List Nat} {n k p : Nat} {N : Net s n s' k p} {st : Store ℝ}
variable {B : Nat} {X : Fin B → Fin n → ℝ} {x : Tensor ℝ}

/-- C20: `set_weight(w)` with at least `n_params` entries succeeds; after it the network is still
properly wired, and `get_weight()` returns the first `n_params` entries (a longer `w` is silently
truncated). -/
theorem C20_set_get (h : N.Ok st) (hs : N.paramIds.Nodup) (hp : 0 < p) {v : Tensor ℝ} {m : Nat} (hv : v.shape = [m]) (hm : p ≤ m) :
    ∃ st', N.mod.setWeight v st = (.ok (), st') ∧ N.Ok st' ∧
      ∃ t, Returns N.mod.getWeight st' t ∧ IsVec1 t p fun i => v.data i := by
  obtain ⟨st', hr, _, hok, hw⟩ := h.setWeight hs (v := v) (by simp [Tensor.numel, hv, size, hm])
  obtain ⟨t, ht, hT⟩ := hok.getWeight hs hp
  refine ⟨st', hr, hok, t, by rw [Returns, ht], hT.1, fun i => ?_⟩
  rw [hT.2 i, hw]

/-- C20: `set_weight(get_weight())` changes nothing: every parameter of the program keeps its shape and
entries, and no cache or hook changes. -/
theorem C20_get_set (h : N.Ok st) (hs : N.paramIds.Nodup) (hp : 0 < p) :
    ∃ t st', N.mod.getWeight st = (.ok t, st) ∧ N.mod.setWeight t st = (.ok (), st') ∧
      (∀ i, TEq (st'.param i) (st.param i)) ∧ st'.fmaps = st.fmaps ∧ st'.pidx = st.pidx ∧ st'.hooks = st.hooks := by
  obtain ⟨t, ht, hT⟩ := h.getWeight hs hp
  obtain ⟨st', hr, hS, hok, hw⟩ := h.setWeight hs (v := t) (by simp [Tensor.numel, hT.1, size])
  refine ⟨t, st', ht, hr, fun i => ?_, hS.fmaps, hS.pidx, hS.hooks⟩
  by_cases hi : i ∈ N.paramIds
  · refine flatAt_ext (fun i => hS.shape i) (fun k hk => ?_) i hi
    rw [hS.val k hk]
    have hk' : k < p := by rw [h.len] at hk; exact hk
    have := hT.2 ⟨k, hk'⟩
    rw [h.wAt] at this
    simpa using this
  · rw [hS.other i hi]; exact ⟨rfl, fun _ _ => rfl⟩

/-- C20: a vector with fewer than `n_params` entries raises. -/
theorem C20_short (h : N.Ok st) (hs : N.paramIds.Nodup) {v : Tensor ℝ} {m : Nat} (hv : v.shape = [m]) (hm : m < p) :
    ∃ st', N.mod.setWeight v st = (.error .shape, st') := by
  rw [Mod.setWeight, N.parameters hs]
  exact setWeightLoop_short v _ 0 st (by rw [h.len]; simpa [Tensor.numel, hv, size] using hm) (Nat.zero_le _)

/-- C20: `get_weight` raises exactly on modules without parameters. -/
theorem C20_none (h : N.Ok st) (hs : N.paramIds.Nodup) : (∃ e, N.mod.getWeight st = (.error e, st)) ↔ p = 0 := by
  constructor
  · rintro ⟨e, he⟩
    by_contra h0
    obtain ⟨t, ht, _⟩ := h.getWeight hs (Nat.pos_of_ne_zero h0)
    rw [ht] at he
    simp at he
  · intro h0
    refine ⟨.shape, ?_⟩
    rw [Mod.getWeight, N.parameters hs, (N.paramIds_nil).2 h0]
    rfl

/-- C21: `set_weight` on a network changes no hook, no cache and no parameter of another module: every
network `M` without a parameter in common keeps its weights. -/
theorem C21_frame (h : N.Ok st) (hs : N.paramIds.Nodup) {v : Tensor ℝ} {m : Nat} (hv : v.shape = [m]) (hm : p ≤ m) :
    ∃ st', N.mod.setWeight v st = (.ok (), st') ∧ st'.fmaps = st.fmaps ∧ st'.pidx = st.pidx ∧ st'.hooks = st.hooks ∧
      (∀ i, i ∉ N.paramIds → st'.param i = st.param i) ∧
      ∀ {t t' : List Nat} {n' k' p' : Nat} (M : Net t n' t' k' p'), M.Ok st → M.Ok st' ∧
        (M.paramIds.Disjoint N.paramIds → M.mod.getWeight st' = ((M.mod.getWeight st).1, st')) := by
  obtain ⟨st', hr, hS, hok, hw⟩ := h.setWeight hs (v := v) (by simp [Tensor.numel, hv, size, hm])
  refine ⟨st', hr, hS.fmaps, hS.pidx, hS.hooks, hS.other, fun M hM => ⟨hM.of_wiring hS.wiring, fun hd => ?_⟩⟩
  have hmem : ∀ i ∈ M.mod.parameters, i ∈ M.paramIds := by
    rw [Mod.parameters, M.mod_params]
    exact fun i hi => mem_of_mem_dedupFirst hi
  simp only [Mod.getWeight]
  rw [List.map_congr_left fun i hi => by rw [hS.other i fun h' => hd (hmem i hi) h']]

/-- C21: seen from an enclosing network `N'` that holds `N` at parameter offset `off`, `N.set_weight(w)`
replaces exactly the entries `off, ..., off + p - 1` of the weights; and the next forward pass of `N'` uses
the new weights: it is the forward pass that follows `N'.set_weight` of the same vector. -/
theorem C21_enclosing {t t' : List Nat} {n' k' p' : Nat} {N' : Net t n' t' k' p'} {off : Nat} (hsub : SubAt N N' off)
    (h : N.Ok st) (h' : N'.Ok st) (hs : N'.paramIds.Nodup) (hp : 0 < p) {v : Tensor ℝ} (hv : v.shape = [p]) :
    ∃ st' w w', N.mod.setWeight v st = (.ok (), st') ∧ N'.Ok st' ∧
      Returns N'.mod.getWeight st w ∧ Returns N'.mod.getWeight st' w' ∧ w.shape = [p'] ∧ w'.shape = [p'] ∧ off + p ≤ p' ∧
      (∀ i < p', w'.data i = if off ≤ i ∧ i < off + p then v.data (i - off) else w.data i) ∧
      ∃ st'', N'.mod.setWeight w' st = (.ok (), st'') ∧
        ∀ {B : Nat} {X : Fin B → Fin n' → ℝ} {x : Tensor ℝ}, 0 < B → IsBatch x B t n' X →
          ∃ y y'' Y, Returns (N'.mod.forward x) st' y ∧ Returns (N'.mod.forward x) st'' y'' ∧ IsBatch y B t' k' Y ∧ IsBatch y'' B t' k' Y := by
  obtain ⟨pre, post, hd, hl⟩ := hsub.decomp
  have hNs : N.paramIds.Nodup := by
    rw [hd] at hs
    exact (List.nodup_append.1 (List.nodup_append.1 hs).1).2.1
  obtain ⟨st', hr, hS, hok, hw⟩ := h.setWeight hNs (v := v) (by simp [Tensor.numel, hv, size])
  have hok' := h'.of_wiring hS.wiring
  have hlen := h'.len
  have hpre := hl st (Net.Wired.shapes N' st h'.wired)
  have hlen2 := hlen
  rw [hd, flatLen_append, flatLen_append, h.len, hpre] at hlen2
  have hp' : 0 < p' := by omega
  obtain ⟨w, hw1, hW1⟩ := h'.getWeight hs hp'
  obtain ⟨w', hw2, hW2⟩ := hok'.getWeight hs hp'
  obtain ⟨st'', hr2, hS2, hok2, hw2'⟩ := h'.setWeight hs (v := w') (by simp [Tensor.numel, hW2.1, size])
  refine ⟨st', w, w', hr, hok', by rw [Returns, hw1], by rw [Returns, hw2], hW1.1, hW2.1, by omega, fun i hi => ?_, st'', hr2, ?_⟩
  · have e1 := hW1.2 ⟨i, hi⟩
    have e2 := hW2.2 ⟨i, hi⟩
    rw [h'.wAt, hd] at e1
    rw [hok'.wAt, hd] at e2
    simp only at e1 e2
    rw [e1, e2]
    rw [hd] at hs
    have hd1 : ∀ j ∈ pre, j ∉ N.paramIds := fun j hj hj' =>
      (List.nodup_append.1 (List.nodup_append.1 hs).1).2.2 j hj j hj' rfl
    have hd2 : ∀ j ∈ post, j ∉ N.paramIds := fun j hj hj' =>
      (List.nodup_append.1 hs).2.2 j (List.mem_append_right _ hj') j hj rfl
    have c1 := flat_congr (st := st) (st' := st') (is := pre) fun j hj => by rw [hS.other j (hd1 j hj)]; exact ⟨rfl, fun _ _ => rfl⟩
    have c2 := flat_congr (st := st) (st' := st') (is := post) fun j hj => by rw [hS.other j (hd2 j hj)]; exact ⟨rfl, fun _ _ => rfl⟩
    simp only [flatAt_append, flatLen_append, hS.flatLen, h.len, hpre]
    by_cases h1 : i < off
    · rw [if_pos (by omega), if_pos h1, if_neg (by omega), if_pos (by omega), if_pos h1]
      exact c1.2 i (by omega)
    · by_cases h2 : i < off + p
      · rw [if_pos h2, if_neg h1, if_pos ⟨by omega, h2⟩]
        have := hw ⟨i - off, by omega⟩
        rw [hok.wAt] at this
        exact this
      · rw [if_neg h2, if_neg (by omega), if_neg h2]
        exact c2.2 _ (by omega)
  · intro B X x hB hx
    obtain ⟨y, hy, hY⟩ := hok'.forward hB hx
    obtain ⟨y2, hy2, hY2⟩ := hok2.forward hB hx
    have hweq : N'.w st'' = N'.w st' := by
      funext i; rw [hw2', hW2.2]
    rw [hweq] at hY2
    exact ⟨y, y2, _, hy, hy2, hY, hY2⟩

/-- C02, well-definedness: `set_weight(w)` followed by `forward(x)` returns, for every vector `w`. -/
theorem C02_forward (h : N.Ok st) (hs : N.paramIds.Nodup) (hB : 0 < B) (hx : IsBatch x B s n X) (w : Fin p → ℝ) :
    ∃ t, Returns (do N.mod.setWeight (ofVec w); N.mod.forward x) st t ∧
      IsBatch t B s' k fun b => weightMap N.mod st x b w := by
  obtain ⟨t, ht, hT⟩ := h.weightMap_run hs hB hx w
  refine ⟨t, ht, hT.1, fun b i => ?_⟩
  show _ = weightMap N.mod st x b w i
  rw [h.weightMap_eq hs hB hx b]
  exact hT.2 b i

/-- C02: `jacobian(x, None, wrt="weight")` returns a tensor of shape `[B, k, n_params]` whose `b`-th matrix
is the Fréchet derivative, at `w = get_weight()`, of `w ↦ b-th output of forward(x) after set_weight(w)`;
so its columns are in the order of `get_weight`. -/
theorem C02_jacobian_weight (h : N.Ok st) (hs : N.paramIds.Nodup) (hp : 0 < p) (hB : 0 < B) (hx : IsBatch x B s n X) :
    ∃ jt J wt w, Returns (N.mod.jacobian x none .weight) st (some jt) ∧ IsMat jt B k p J ∧
      Returns N.mod.getWeight st wt ∧ IsVec1 wt p w ∧
      ∀ b : Fin B, N.sem.smooth w (X b) → HasFDerivAt (weightMap N.mod st x b) (linMap (J b)) w := by
  obtain ⟨jt, hj, hJ⟩ := h.jacW hB hx hp
  obtain ⟨wt, hw, hW⟩ := h.getWeight hs hp
  refine ⟨jt, _, wt, _, hj, hJ, by rw [Returns, hw], hW, fun b hsm => ?_⟩
  rw [h.weightMap_eq hs hB hx b]
  exact (N.diff _ _ hsm).weight

/-! The example network satisfies the hypotheses; it holds its last Linear at offset 15. -/

theorem exNet_paramIds : exNet.paramIds = [0, 1, 2, 3, 4] := by simp [exNet, Net.paramIds, Chain.paramIds]

example : ∃ jt J wt w, Returns (exNet.mod.jacobian exInput none .weight) exStore (some jt) ∧ IsMat jt 2 1 _ J ∧
      Returns exNet.mod.getWeight exStore wt ∧ IsVec1 wt _ w ∧
      ∀ b : Fin 2, exNet.sem.smooth w (fun i => (2 * b + i : ℝ)) → HasFDerivAt (weightMap exNet.mod exStore exInput b) (linMap (J b)) w :=
  C02_jacobian_weight exNet_ok (by rw [exNet_paramIds]; decide) (by norm_num) (by norm_num) exInput_isBatch

example : SubAt (.linear 8 3 (some 4) 5 1 (by norm_num) (by norm_num)) exNet 15 :=
  .seq _ (.right (off := 0) _ (.seq _ (.right (off := 0) _ (.refl _))))

end Props
end NNJ
