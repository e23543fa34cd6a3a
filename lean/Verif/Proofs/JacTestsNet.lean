import Verif.Proofs.JacTestsW
import Verif.Proofs.Autograd

/-! tests/jacobians.py on networks. -/

namespace NNJ
namespace Tests
open Tensor Matrix

/-! ### a parameter used twice -/

theorem totalSize_dedup {sh : Nat → List Nat} : ∀ (l seen : List Nat), totalSize sh (dedupFirst seen l) ≤ totalSize sh l ∧
    ((∀ i ∈ l, 0 < size (sh i)) → (¬ l.Nodup ∨ ∃ i ∈ l, i ∈ seen) → totalSize sh (dedupFirst seen l) < totalSize sh l)
  | [], seen => ⟨le_rfl, fun _ h => by simp at h⟩
  | a :: l, seen => by
    have e : totalSize sh (a :: l) = size (sh a) + totalSize sh l := by simp [totalSize]
    simp only [dedupFirst, e]
    split
    · obtain ⟨h1, _⟩ := totalSize_dedup (sh := sh) l seen
      exact ⟨by omega, fun hp _ => by have := hp a (by simp); omega⟩
    · rename_i ha
      obtain ⟨h1, h2⟩ := totalSize_dedup (sh := sh) l (a :: seen)
      have e' : totalSize sh (a :: dedupFirst (a :: seen) l) = size (sh a) + totalSize sh (dedupFirst (a :: seen) l) := by simp [totalSize]
      rw [e']
      refine ⟨by omega, fun hp h => ?_⟩
      have := h2 (fun i hi => hp i (by simp [hi])) (by
        rcases h with h | ⟨i, hi, his⟩
        · rw [List.nodup_cons, not_and_or, not_not] at h
          exact h.symm.imp id fun h => ⟨a, h, by simp⟩
        · rcases List.mem_cons.1 hi with rfl | hi
          · exact absurd his ha
          · exact .inr ⟨i, hi, by simp [his]⟩)
      omega

section
variable {s s' : List Nat} {n k p B : Nat} {L : Mod ℝ} {ag : Autograd} {I : Store ℝ → Prop} {x : Tensor ℝ} {X : Fin B → Fin n → ℝ} {G : Fin B → Matrix (Fin k) (Fin p) ℝ}
  {sh : Nat → List Nat}

/-- the row of gradients is too short -/
theorem jacWeight_shared {Y : Fin B → Fin k → ℝ} {M : Fin B → Matrix (Fin k) (Fin p) ℝ} (hs' : size s' = k) (hs : size s = n) (hk : 0 < k) (hB : 0 < B)
    (hx : IsBatch x B s n X) {st : Store ℝ} {buf : Grads} (hL : L.nParams = p) (hp : totalSize sh L.params = p) (hp0 : 0 < p)
    (hpos : ∀ i ∈ L.params, 0 < size (sh i)) (hn : ¬ L.params.Nodup) (h1 : totalSize sh L.parameters ≠ 1)
    (hc0 : Run (L.call x) st fun y st' => IsBatch y B s' k Y ∧ I st')
    (hj : ∀ st, I st → Run (L.jacobian x none .weight) st fun r st' => IsSome (fun t => IsMat t B k p M) r ∧ I st')
    (hc : ∀ (b : Fin B) x1 st, I st → IsBatch x1 1 s n (fun _ => X b) → Run (L.call x1) st fun y st' => y.shape = 1 :: s' ∧ I st')
    (hg : GradsRun L ag I s X G sh) (hb : ∀ i ∈ L.params, buf i = none ∨ buf i = some (zeros (sh i))) :
    (jacWeight L ag x buf st).1 = .error .shape := by
  obtain ⟨y, st1, e1, hy, hI1⟩ := hc0
  obtain ⟨r, st2, e2, _, hI2⟩ := hj st1 hI1
  obtain ⟨x1, e3, hx1⟩ := slice_sample hs hx ⟨0, hB⟩
  obtain ⟨y1, st3, e4, hy1, hI3⟩ := hc ⟨0, hB⟩ x1 st2 hI2 hx1
  obtain ⟨gs, st4, e5, ⟨hf, _⟩, hI4⟩ := hg ⟨0, hB⟩ ⟨0, hk⟩ x1 st3 hI3 hx1
  obtain ⟨buf1, e6, hF, _⟩ := accumulate_shape (buf := buf) hf fun i h hi hm => by
    rcases hb i hm with hb | hb
    · rw [hb] at hi; cases hi
    · rw [hb] at hi
      obtain rfl : zeros (sh i) = h := by simpa using hi
      rfl
  set T : Nat → Tensor ℝ := fun i => (buf1 i).getD (zeros []) with hT
  have hmem : ∀ i ∈ L.parameters, i ∈ L.params := fun i hi => mem_of_mem_dedupFirst hi
  have hTs : ∀ i ∈ L.parameters, buf1 i = some (T i) ∧ (T i).shape = sh i := fun i hi => by
    obtain ⟨t, ht, hts⟩ := hF i (.inl (hmem i hi))
    simp [hT, ht, hts]
  obtain ⟨buf2, e7, _⟩ := collect_run (T := T) (buf := buf1) (is := L.parameters) (dedupFirst_nodup' _ _).1 fun i hi => (hTs i hi).1
  have hne : L.parameters ≠ [] := by
    obtain ⟨i, hi⟩ : ∃ i, i ∈ L.params := List.exists_mem_of_ne_nil _ (by rintro h; rw [h] at hn; simp at hn)
    exact List.ne_nil_of_mem (mem_dedup _ [] hi (by simp))
  obtain ⟨row, e8, hr, _⟩ := cat_flat (T := T) hne
  rw [flatLen_total fun i hi => (hTs i hi).2] at hr
  have hlt : totalSize sh L.parameters < p := by
    rw [← hp]; exact (totalSize_dedup L.params []).2 hpos (.inl hn)
  have e9 : setRow (zeros [B, k, p]) row 0 0 = .error .shape := by
    simp only [setRow, zeros, full, hr]
    rw [if_pos ⟨hB, hk⟩, if_neg (by omega)]
  have hr1 : y1.reshape [k] = .ok ⟨[k], y1.data⟩ := by rw [reshape, if_pos]; simp [numel, hy1, size, hs']
  have eo : ∀ os, fillOutputs L ag x1 0 (0 :: os) (zeros [B, k, p]) buf st3 = (.error .shape, st4) := fun os => by
    simp only [fillOutputs]
    rw [Prog.bind_ok (show ag.grads x1 0 st3 = _ from e5)]
    simp only [e6, e7, e8, e9, Prog.bind_lift_ok]
    rfl
  have ew : ∀ bs, fillWeight L ag x k (0 :: bs) (zeros [B, k, p]) buf st2 = (.error .shape, st4) := fun bs => by
    simp only [fillWeight]
    rw [show x.slice 0 0 (0 + 1) = .ok x1 from e3, Prog.bind_lift_ok, Prog.bind_ok e4, hr1, Prog.bind_lift_ok]
    refine Prog.bind_error ?_
    obtain ⟨k, rfl⟩ : ∃ k', k = k' + 1 := ⟨k - 1, by omega⟩
    rw [List.range_succ_eq_map]
    exact eo _
  have e : jacWeight L ag x buf st = (.error .shape, st4) := by
    simp only [jacWeight]
    rw [Prog.bind_ok e1]
    simp only [hx.dim0, hy.numel0 hB hs', Prog.bind_lift_ok]
    rw [Prog.bind_ok e2, if_neg (by omega), hL]
    refine Prog.bind_error ?_
    obtain ⟨B, rfl⟩ : ∃ B', B = B' + 1 := ⟨B - 1, by omega⟩
    rw [List.range_succ_eq_map]
    exact ew _
  rw [e]

end

/-! ### networks -/

theorem near_mat {t : Tensor ℝ} {B m n : Nat} {M G : Fin B → Matrix (Fin m) (Fin n) ℝ} (h : IsMat t B m n M) : NearMat t B m n G ↔ ∀ b i j, Near (M b i j) (G b i j) :=
  ⟨fun hn b i j => by rw [← h.2]; exact hn.2 b i j, fun hn => ⟨h.1, fun b i j => by rw [h.2]; exact hn b i j⟩⟩

section
variable {s s' : List Nat} {n k p B : Nat} {N : Net s n s' k p} {st0 : Store ℝ} {x : Tensor ℝ} {X : Fin B → Fin n → ℝ}

theorem sample_batch {t : Tensor ℝ} (h : IsBatch t B s n X) (b : Fin B) : (t.sample b : Fin n → ℝ) = X b := funext fun i => h.2 b i

theorem autograd_vjp (htop : st0.hooks N.mod.id = []) (hB : 0 < B) (hx : IsBatch x B s n X) (o : Fin k) {v : Tensor ℝ} {st : Store ℝ} (S : Sit N st0 st)
    (hv : IsBatch v B s' k fun _ => Pi.single o 1) :
    Run (N.autograd.vjp x v) st fun r st' => IsBatch r B s n (fun b => (N.backward (N.w st0) (X b) (Pi.single o 1)).1) ∧ Sit N st0 st' := by
  simp only [Net.autograd]
  refine Run.bind (S.call hB hx htop) fun y st1 ⟨hy, S1⟩ => ?_
  refine ⟨⟨x.shape, fun i => if h : i % n < n then (N.backward (N.w st1) (x.sample (i / n)) (v.sample (i / n))).1 ⟨i % n, h⟩ else 0⟩, st1, ?_, ?_, S1⟩
  · rw [Prog.bind_read_run, if_pos (hy.1.trans hv.1.symm)]
    rfl
  · refine ⟨hx.1, fun b i => ?_⟩
    have hn : 0 < n := by have := i.2; omega
    have h1 : (b * n + i : Nat) % n = i := by rw [Nat.mul_comm, Nat.mul_add_mod, Nat.mod_eq_of_lt i.2]
    have h2 : (b * n + i : Nat) / n = b := by rw [Nat.mul_comm, Nat.mul_add_div hn, Nat.div_eq_of_lt i.2, Nat.add_zero]
    simp only [h1, h2]
    rw [dif_pos i.2, sample_batch hx, sample_batch hv, S1.w]

theorem splitParams_shape {st : Store ℝ} {g : Nat → ℝ} : ∀ (is : List Nat) (off : Nat), List.Forall₂ (fun i t => t.shape = (st.param i).shape) is (splitParams st g is off)
  | [], _ => .nil
  | _ :: is, _ => .cons rfl (splitParams_shape is _)

theorem splitParams_at {st : Store ℝ} {g : Nat → ℝ} : ∀ (is : List Nat) (off j : Nat), j < flatLen st is → catAt (splitParams st g is off) j = g (off + j)
  | [], _, j, h => absurd h (Nat.not_lt_zero j)
  | i :: is, off, j, h => by
    simp only [flatLen] at h
    simp only [splitParams, catAt]
    by_cases hj : j < (st.param i).numel
    · exact if_pos hj
    · refine (if_neg hj).trans ((splitParams_at is _ _ ?_).trans (congrArg g ?_))
      · show j - (st.param i).numel < _; omega
      · show off + (st.param i).numel + (j - (st.param i).numel) = _; omega

theorem autograd_grads (h : N.Ok st0) : GradsRun (B := B) N.mod N.autograd (Sit N st0) s X
    (fun b i => (N.backward (N.w st0) (X b) (Pi.single i 1)).2) fun i => (st0.param i).shape := by
  intro b o x1 st S hx1
  have hp : st.param = st0.param := S.step.param
  refine ⟨_, st, rfl, ⟨?_, fun j => ?_⟩, S⟩
  · have := splitParams_shape (st := st) (g := fun i => if h : i < p then (N.backward (N.w st) (x1.sample 0) fun j => if (j : Nat) = o then 1 else 0).2 ⟨i, h⟩ else 0) N.mod.params 0
    rw [hp] at this
    exact this
  · have hl : flatLen st N.mod.params = p := by
      rw [N.mod_params]
      exact (N.w_flat st (S.ok.wired.shapes)).1
    refine (splitParams_at _ 0 _ (by rw [hl]; exact j.2)).trans ?_
    simp only [Nat.zero_add]
    rw [dif_pos j.2, S.w]
    have e1 : (x1.sample 0 : Fin n → ℝ) = X b := sample_batch hx1 0
    have e2 : (fun j : Fin k => if (j : Nat) = o then (1 : ℝ) else 0) = Pi.single o 1 := by
      funext j
      rw [Pi.single_apply]
      simp only [Fin.ext_iff]
    rw [e1, e2]

theorem totalSize_net (h : N.Ok st0) : totalSize (fun i => (st0.param i).shape) N.mod.params = p := by
  rw [← (flatLen_total (T := st0.param) fun _ _ => rfl : flatLen (withParams st0.param) N.mod.params = _), N.mod_params]
  exact (N.w_flat (withParams st0.param) (N.shapes_congr (st := st0) rfl h.wired.shapes)).1


theorem pos_of_weightBias {wId : Nat} {bId : Option Nat} {o : Nat} {st : Store ℝ} (hw : 0 < size (st.param wId).shape) (hb : ∀ b ∈ bId, (st.param b).shape = [o]) (ho : 0 < o) :
    ∀ i ∈ wId :: bId.toList, 0 < size (st.param i).shape := by
  intro i hi
  rcases List.mem_cons.1 hi with rfl | hi
  · exact hw
  · rw [hb i (by simpa using hi)]
    simpa [size] using ho

mutual
theorem paramIds_pos : {s s' : List Nat} → {n k p : Nat} → (N : Net s n s' k p) → (st : Store ℝ) → N.Shapes st → ∀ i ∈ N.paramIds, 0 < size (st.param i).shape
  | _, _, _, _, _, .linear _ wId bId i o hi ho, st, h => by
    simp only [Net.Shapes] at h
    simp only [Net.paramIds]
    exact pos_of_weightBias (by rw [h.1]; simp [size]; omega) h.2 (by omega)
  | _, _, _, _, _, .conv _ wId bId g, st, h => by
    simp only [Net.Shapes] at h
    simp only [Net.paramIds]
    have := g.hc1; have := g.hc2; have := g.pkh; have := g.pkw
    exact pos_of_weightBias (by rw [h.1]; simp only [size]; positivity) h.2 g.hc2
  | _, _, _, _, _, .act _ _ _ _ _ _, _, _ => by simp [Net.paramIds]
  | _, _, _, _, _, .flatten _ _ _ _ _, _, _ => by simp [Net.paramIds]
  | _, _, _, _, _, .reshape _ _ _ _ _ _ _ _ _, _, _ => by simp [Net.paramIds]
  | _, _, _, _, _, .l2norm _ _ _ _ _ _ _, _, _ => by simp [Net.paramIds]
  | _, _, _, _, _, .upsample _ _ _ _ _ _ _ _ _, _, _ => by simp [Net.paramIds]
  | _, _, _, _, _, .maxpool _ _, _, _ => by simp [Net.paramIds]
  | _, _, _, _, _, .seq _ c, st, h => by
    simp only [Net.Shapes] at h
    simp only [Net.paramIds]
    exact paramIds_posC c st h
  | _, _, _, _, _, .skip _ _ c, st, h => by
    simp only [Net.Shapes] at h
    simp only [Net.paramIds]
    exact paramIds_posC c st h
theorem paramIds_posC : {s s' : List Nat} → {n k p l : Nat} → (c : Chain s n s' k p l) → (st : Store ℝ) → c.Shapes st → ∀ i ∈ c.paramIds, 0 < size (st.param i).shape
  | _, _, _, _, _, _, .nil _ _ _ _, _, _ => by simp [Chain.paramIds]
  | _, _, _, _, _, _, .snoc c m, st, h => by
    simp only [Chain.Shapes] at h
    simp only [Chain.paramIds, List.mem_append]
    rintro i (hi | hi)
    · exact paramIds_posC c st h.1 i hi
    · exact paramIds_pos m st h.2 i hi
end

section
variable {buf : Grads} (h : N.Ok st0) (htop : st0.hooks N.mod.id = []) (hB : 0 < B) (hx : IsBatch x B s n X)
include h htop hB hx

theorem jacInput_net : ∃ st', Sit N st0 st' ∧
    (N.NearInput st0 X → jacInput N.mod N.autograd x st0 = (.ok (), st')) ∧ (¬ N.NearInput st0 X → jacInput N.mod N.autograd x st0 = (.error .assertion, st')) := by
  obtain ⟨hs, hs', _, _⟩ := N.sizes
  obtain ⟨j, st', hJ, S, h1⟩ := jacInput_run (I := Sit N st0) hs' hs hB hx ((Sit.refl h).call hB hx htop) (fun st S => S.jacI hB hx)
    fun o v st S hv => autograd_vjp htop hB hx o S hv
  exact ⟨st', S, fun hn => h1.1 ((near_mat hJ).2 hn), fun hn => h1.2 fun h' => hn ((near_mat hJ).1 h')⟩

theorem jacWeight_net {ps : List Nat} (hps : N.mod.params ⊆ ps) (hp : 0 < p) (hn : N.mod.params.Nodup) (hb : buf.Clean st0 ps) : ∃ st' buf', Sit N st0 st' ∧ buf'.Clean st0 ps ∧
    (N.NearWeight st0 X → jacWeight N.mod N.autograd x buf st0 = (.ok buf', st')) ∧ (¬ N.NearWeight st0 X → jacWeight N.mod N.autograd x buf st0 = (.error .assertion, st')) := by
  obtain ⟨hs, hs', _, _⟩ := N.sizes
  obtain ⟨j, st', buf', hJ, S, hc, h1⟩ := jacWeight_run (I := Sit N st0) hs' hs hB hx hps hn N.nParams_eq (totalSize_net h) hp ((Sit.refl h).call hB hx htop)
    (fun st S => Run.toSome hp (S.jacW hB hx hp)) (fun b x1 st S hx1 => (S.call Nat.one_pos hx1 htop).mono fun y st' ⟨h1, h2⟩ => ⟨h1.1, h2⟩) (autograd_grads h) hb
  exact ⟨st', buf', S, hc, fun hn => h1.1 ((near_mat hJ).2 hn), fun hn => h1.2 fun h' => hn ((near_mat hJ).1 h')⟩

theorem jacWeight_net_shared (hp : 0 < p) (hn : ¬ N.mod.params.Nodup) (h1 : totalSize (fun i => (st0.param i).shape) N.mod.parameters ≠ 1)
    (hb : buf.Clean st0 N.mod.params) : (jacWeight N.mod N.autograd x buf st0).1 = .error .shape := by
  obtain ⟨hs, hs', _, hk⟩ := N.sizes
  exact jacWeight_shared (I := Sit N st0) hs' hs hk hB hx N.nParams_eq (totalSize_net h) hp (by rw [N.mod_params]; exact paramIds_pos N st0 h.wired.shapes) hn h1
    ((Sit.refl h).call hB hx htop) (fun st S => Run.toSome hp (S.jacW hB hx hp))
    (fun b x1 st S hx1 => (S.call Nat.one_pos hx1 htop).mono fun y st' ⟨h1, h2⟩ => ⟨h1.1, h2⟩) (autograd_grads h) hb

theorem jacWeight_net_none (hp : p = 0) (hw : N.FwdW) : ∃ st', Sit N st0 st' ∧ jacWeight N.mod N.autograd x buf st0 = (.ok buf, st') := by
  obtain ⟨hs, hs', _, _⟩ := N.sizes
  obtain ⟨y, st1, e1, hy, S1⟩ := (Sit.refl h).call hB hx htop
  have := S1.run (S1.ok.g.jacW S1.ok.w hB hx (.inr (N.mdl_fwdW.2 hw)))
  rw [Net.mdl_m] at this
  obtain ⟨r, st2, e2, hr, S2⟩ := this
  rw [OptW, if_pos hp] at hr
  refine ⟨st2, S2, ?_⟩
  simp only [jacWeight]
  rw [Prog.bind_ok e1]
  simp only [hx.dim0, hy.numel0 hB hs', Prog.bind_lift_ok]
  rw [Prog.bind_ok e2, N.nParams_eq, if_pos hp, hr]
  rfl

end
end
end Tests
end NNJ
