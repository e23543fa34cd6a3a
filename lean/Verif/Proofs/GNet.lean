import Verif.Proofs.ConvGen
import Verif.Proofs.DerivL2

/-! Networks with other layers satisfy the input part of the contract. -/

namespace NNJ
open Tensor Matrix

/-- a layer as a module with contract -/
noncomputable def ILayer.mdl {s s' : List Nat} {n k p : Nat} (L : ILayer s n s' k p) : Mdl s n s' k p :=
  Mdl.leaf L.mod s n s' k p L.sem L.params L.w

mutual
noncomputable def GNet.mdl : {s s' : List Nat} → {n k p : Nat} → GNet s n s' k p → Mdl s n s' k p
  | _, _, _, _, _, .net N => N.mdl
  | _, _, _, _, _, .layer L => L.mdl
  | _, _, _, _, _, .seq id c => seqMdl id c.mchain
  | _, _, _, _, _, .skip id fid ch => skipMdl id (seqMdl fid ch.mchain)
noncomputable def GChain.mchain : {s s' : List Nat} → {n k p l : Nat} → GChain s n s' k p l → MChain s n s' k p l
  | _, _, _, _, _, _, .nil s n _ _ => .nil s n
  | _, _, _, _, _, _, .snoc c m => .snoc c.mchain m.mdl
end

mutual
theorem GNet.mdl_m : {s s' : List Nat} → {n k p : Nat} → (N : GNet s n s' k p) → N.mdl.m = N.mod
  | _, _, _, _, _, .net N => by simp only [GNet.mdl, GNet.mod, Net.mdl_m]
  | _, _, _, _, _, .layer L => by simp only [GNet.mdl, GNet.mod, ILayer.mdl, Mdl.leaf]
  | _, _, _, _, _, .seq id c => by simp only [GNet.mdl, GNet.mod, seqMdl, GChain.mchain_mods c]
  | _, _, _, _, _, .skip id fid ch => by simp only [GNet.mdl, GNet.mod, skipMdl, seqMdl, GChain.mchain_mods ch]
theorem GChain.mchain_mods : {s s' : List Nat} → {n k p l : Nat} → (c : GChain s n s' k p l) → c.mchain.mods = c.mods
  | _, _, _, _, _, _, .nil _ _ _ _ => by simp only [GChain.mchain, MChain.mods, GChain.mods]
  | _, _, _, _, _, _, .snoc c m => by simp only [GChain.mchain, MChain.mods, GChain.mods, GChain.mchain_mods c, GNet.mdl_m m]
end

mutual
theorem GNet.mdl_S : {s s' : List Nat} → {n k p : Nat} → (N : GNet s n s' k p) → N.mdl.S = N.sem
  | _, _, _, _, _, .net N => by simp only [GNet.mdl, GNet.sem, Net.mdl_S]
  | _, _, _, _, _, .layer L => by simp only [GNet.mdl, GNet.sem, ILayer.mdl, Mdl.leaf]
  | _, _, _, _, _, .seq id c => by simp only [GNet.mdl, GNet.sem, seqMdl, GChain.mchain_S c]
  | _, _, _, _, _, .skip id fid ch => by simp only [GNet.mdl, GNet.sem, skipMdl, seqMdl, GChain.mchain_S ch]
theorem GChain.mchain_S : {s s' : List Nat} → {n k p l : Nat} → (c : GChain s n s' k p l) → c.mchain.S = c.sem
  | _, _, _, _, _, _, .nil _ _ _ _ => by simp only [GChain.mchain, MChain.S, GChain.sem]
  | _, _, _, _, _, _, .snoc c m => by simp only [GChain.mchain, MChain.S, GChain.sem, GChain.mchain_S c, GNet.mdl_S m]
end

mutual
theorem GNet.mdl_ids : {s s' : List Nat} → {n k p : Nat} → (N : GNet s n s' k p) → N.mdl.ids = N.ids
  | _, _, _, _, _, .net N => by simp only [GNet.mdl, GNet.ids, Net.mdl_ids]
  | _, _, _, _, _, .layer L => by simp only [GNet.mdl, GNet.ids, ILayer.mdl, Mdl.leaf]
  | _, _, _, _, _, .seq id c => by simp only [GNet.mdl, GNet.ids, seqMdl, GChain.mchain_ids c]
  | _, _, _, _, _, .skip id fid ch => by simp only [GNet.mdl, GNet.ids, skipMdl, seqMdl, GChain.mchain_ids ch]
theorem GChain.mchain_ids : {s s' : List Nat} → {n k p l : Nat} → (c : GChain s n s' k p l) → c.mchain.ids = c.ids
  | _, _, _, _, _, _, .nil _ _ _ _ => by simp only [GChain.mchain, MChain.ids, GChain.ids]
  | _, _, _, _, _, _, .snoc c m => by simp only [GChain.mchain, MChain.ids, GChain.ids, GChain.mchain_ids c, GNet.mdl_ids m]
end

mutual
theorem GNet.mdl_w : {s s' : List Nat} → {n k p : Nat} → (N : GNet s n s' k p) → N.mdl.w = N.w
  | _, _, _, _, _, .net N => by funext st; simp only [GNet.mdl, GNet.w, Net.mdl_w]
  | _, _, _, _, _, .layer L => by funext st; simp only [GNet.mdl, GNet.w, ILayer.mdl, Mdl.leaf]
  | _, _, _, _, _, .seq id c => by funext st; simp only [GNet.mdl, GNet.w, seqMdl, GChain.mchain_w c]
  | _, _, _, _, _, .skip id fid ch => by funext st; simp only [GNet.mdl, GNet.w, skipMdl, seqMdl, GChain.mchain_w ch]
theorem GChain.mchain_w : {s s' : List Nat} → {n k p l : Nat} → (c : GChain s n s' k p l) → c.mchain.w = c.w
  | _, _, _, _, _, _, .nil _ _ _ _ => by funext st; simp only [GChain.mchain, MChain.w, GChain.w]
  | _, _, _, _, _, _, .snoc c m => by funext st; simp only [GChain.mchain, MChain.w, GChain.w, GChain.mchain_w c, GNet.mdl_w m]
end

mutual
theorem GNet.mdl_wired : {s s' : List Nat} → {n k p : Nat} → (N : GNet s n s' k p) → (st : Store ℝ) → (N.mdl.wired st ↔ N.Wired st)
  | _, _, _, _, _, .net N, st => by simp only [GNet.mdl, GNet.Wired, Net.mdl_wired]
  | _, _, _, _, _, .layer L, st => by simp only [GNet.mdl, GNet.Wired, ILayer.mdl, Mdl.leaf]
  | _, _, _, _, _, .seq id c, st => by simp only [GNet.mdl, GNet.Wired, seqMdl, GChain.mchain_wired c id st]
  | _, _, _, _, _, .skip id fid ch, st => by
    simp only [GNet.mdl, GNet.Wired, skipMdl, seqMdl, GChain.mchain_wired ch fid st, Sequential.mod]
    tauto
theorem GChain.mchain_wired : {s s' : List Nat} → {n k p l : Nat} → (c : GChain s n s' k p l) → (q : Nat) → (st : Store ℝ) →
    (c.mchain.Wired q st ↔ c.Wired q st)
  | _, _, _, _, _, _, .nil _ _ _ _, _, _ => by simp only [GChain.mchain, MChain.Wired, GChain.Wired]
  | _, _, _, _, _, _, .snoc c m, q, st => by
    simp only [GChain.mchain, MChain.Wired, GChain.Wired, GChain.mchain_wired c q st, GNet.mdl_wired m st, GNet.mdl_m m]
end

theorem run_of_eq {β : Type} {p : Prog ℝ β} {s : Store ℝ} {P : β → Prop} {b : β} (h : p s = (.ok b, s)) (hb : P b) :
    Run p s fun r s' => P r ∧ s' = s := ⟨b, s, h, hb, rfl⟩

/-- an exact layer satisfies the contract -/
theorem ILayer.Exact.good {s s' : List Nat} {n k p : Nat} {L : ILayer s n s' k p} (h : L.Exact) : GoodI L.mdl where
  hn := h.hn
  hk := h.hk
  npos := h.npos
  kpos := h.kpos
  id_mem := List.mem_singleton.2 rfl
  wired_of := fun e hw => h.params_of e.param hw
  w_of := fun e => h.w_of e
  cache_frame := fun _ _ _ => trivial
  forward := @fun st B X x hw hB hx => by
    obtain ⟨t, ht, hT⟩ := h.forward hw hB hx
    exact ⟨t, st, ht, hT, Step.refl, trivial⟩
  jacI := @fun st B X x hw hB hx => by
    obtain ⟨t, ht, hT⟩ := h.jacobian hw hB hx
    exact ⟨some t, st, ht, hT, Step.refl, trivial⟩
  vjpI := @fun st B X x u U hw hB hx hu => back_of_pure (fun _ _ _ => trivial) fun val hv => by
    obtain ⟨t, ht, hT⟩ := h.vjp (val := val) hw hB hx (fun v h => (hv v h).resolve_left fun h => h) hu
    exact run_of_eq ht hT
  mjpI := @fun st B X x r A Z hw hB hx hr hA => back_of_pure (fun _ _ _ => trivial) fun val hv => by
    obtain ⟨t, ht, hT⟩ := h.mjp (val := val) hw hB hx (fun v h => (hv v h).resolve_left fun h => h) hr hA
    exact run_of_eq ht hT
  jTI := @fun st B X x A Z fd td hw hB hx hA => back_of_pure (fun _ _ _ => trivial) fun val hv => by
    obtain ⟨t, ht, hT⟩ := h.jTmjp (val := val) fd td hw hB hx (fun v h => (hv v h).resolve_left fun h => h) hA
    exact run_of_eq ht hT
  jTIdb := @fun st B X x A d hw hB hx hA => back_of_pure (fun _ _ _ => trivial) fun val hv => by
    obtain ⟨t, ht, hT⟩ := h.jTmjp_backprop (val := val) hw hB hx (fun v h => (hv v h).resolve_left fun h => h) hA
    refine run_of_eq ht (show IsVec t B n _ from hT.congr fun b i => ?_)
    rw [diag_sandwichT]
    rfl

mutual
theorem GNet.good : {s s' : List Nat} → {n k p : Nat} → (N : GNet s n s' k p) → N.LayersExact → N.ids.Nodup → GoodI N.mdl
  | _, _, _, _, _, .net N, _, hnd => by
    simp only [GNet.mdl]
    exact (N.good (by simpa only [GNet.ids] using hnd)).toGoodI
  | _, _, _, _, _, .layer L, he, _ => by
    simp only [GNet.mdl]
    simp only [GNet.LayersExact] at he
    exact he.good
  | _, _, _, _, _, .seq id c, he, hnd => by
    simp only [GNet.mdl]
    simp only [GNet.ids] at hnd
    simp only [GNet.LayersExact] at he
    exact good_seqI (GChain.good c he (List.nodup_cons.1 hnd).2) (by rw [GChain.mchain_ids]; exact hnd)
  | _, _, _, _, _, .skip id fid ch, he, hnd => by
    simp only [GNet.mdl]
    simp only [GNet.ids] at hnd
    simp only [GNet.LayersExact] at he
    have h2 := (List.nodup_cons.1 hnd).2
    exact good_skipI (good_seqI (GChain.good ch he (List.nodup_cons.1 h2).2) (by rw [GChain.mchain_ids]; exact h2)) trivial
theorem GChain.good : {s s' : List Nat} → {n k p l : Nat} → (c : GChain s n s' k p l) → c.LayersExact → c.ids.Nodup → c.mchain.AllGoodI
  | _, _, _, _, _, _, .nil _ _ hs hn, _, _ => by simp only [GChain.mchain, MChain.AllGoodI]; exact ⟨hs, hn⟩
  | _, _, _, _, _, _, .snoc c m, he, hnd => by
    simp only [GChain.ids, List.nodup_append] at hnd
    simp only [GChain.LayersExact] at he
    simp only [GChain.mchain, MChain.AllGoodI]
    exact ⟨GChain.good c he.1 hnd.1, GNet.good m he.2 hnd.2.1⟩
end

/-! ### derivatives -/

/-- `J` is the derivative in the input -/
def Sem.DiffI {n k p : Nat} (S : Sem n k p) : Prop := ∀ w x, S.smooth w x → HasFDerivAt (S.f w) (linMap (S.J w x)) x

theorem Sem.Diff.toI {n k p : Nat} {S : Sem n k p} (h : S.Diff) : S.DiffI := fun w x hs => (h w x hs).input

theorem Sem.DiffI.comp {n l k p q : Nat} {S1 : Sem n l p} {S2 : Sem l k q} (h1 : S1.DiffI) (h2 : S2.DiffI) : (S1.comp S2).DiffI := by
  intro w x hs
  have := HasFDerivAt.comp (g := S2.f (wr w)) (f := S1.f (wl w)) x (h2 _ _ hs.2) (h1 _ _ hs.1)
  refine HasFDerivAt.congr_fderiv this ?_
  ext v i
  simp [Sem.comp, ← mulVec_mulVec]

theorem Sem.DiffI.skip {n k p : Nat} {S : Sem n k p} (h : S.DiffI) : S.skip.DiffI := by
  intro w x hs
  have h1 := h w x hs
  rw [hasFDerivAt_pi'] at *
  intro i
  refine Fin.addCases (fun i => ?_) (fun i => ?_) i
  · simp only [Sem.skip, Fin.append_left]
    refine HasFDerivAt.congr_fderiv (ContinuousLinearMap.proj (R := ℝ) (φ := fun _ : Fin n => ℝ) i).hasFDerivAt ?_
    ext z
    simp [vcat_mulVec, Fin.append_left]
  · simp only [Sem.skip, Fin.append_right]
    refine HasFDerivAt.congr_fderiv (h1 i) ?_
    ext z
    simp [vcat_mulVec, Fin.append_right]

mutual
theorem GNet.diff : {s s' : List Nat} → {n k p : Nat} → (N : GNet s n s' k p) → N.LayersExact → N.sem.DiffI
  | _, _, _, _, _, .net N, _ => by simp only [GNet.sem]; exact N.diff.toI
  | _, _, _, _, _, .layer L, he => by
    simp only [GNet.LayersExact] at he
    simp only [GNet.sem]; exact he.deriv
  | _, _, _, _, _, .seq id c, he => by
    simp only [GNet.LayersExact] at he
    simp only [GNet.sem]; exact c.diff he
  | _, _, _, _, _, .skip id fid ch, he => by
    simp only [GNet.LayersExact] at he
    simp only [GNet.sem]; exact (ch.diff he).skip
theorem GChain.diff : {s s' : List Nat} → {n k p l : Nat} → (c : GChain s n s' k p l) → c.LayersExact → c.sem.DiffI
  | _, _, _, _, _, _, .nil _ _ _ _, _ => by simp only [GChain.sem]; exact Sem.Diff.id.toI
  | _, _, _, _, _, _, .snoc c m, he => by
    simp only [GChain.LayersExact] at he
    simp only [GChain.sem]; exact (c.diff he.1).comp (m.diff he.2)
end

/-! ### the contract in the vocabulary of the property statements -/

section
variable {s s' : List Nat} {n k p : Nat} {N : GNet s n s' k p} {st : Store ℝ}
variable {B : Nat} {X : Fin B → Fin n → ℝ} {x : Tensor ℝ}

theorem GNet.Ok.w (h : N.Ok st) : N.mdl.wired st := (N.mdl_wired st).2 h.wired
theorem GNet.Ok.g (h : N.Ok st) : GoodI N.mdl := N.good h.exact h.nodup

noncomputable def GNet.J (N : GNet s n s' k p) (st : Store ℝ) (x : Fin n → ℝ) : Matrix (Fin k) (Fin n) ℝ := N.sem.J (N.w st) x
noncomputable def GNet.Q (N : GNet s n s' k p) (st : Store ℝ) (x : Fin n → ℝ) : Matrix (Fin k) (Fin n) ℝ := N.sem.Q (N.w st) x

theorem GNet.mdl_Y (N : GNet s n s' k p) : N.mdl.Y st X = fun b => N.sem.f (N.w st) (X b) := by
  funext b; simp only [Mdl.Y, GNet.mdl_S, GNet.mdl_w]
theorem GNet.mdl_J (N : GNet s n s' k p) : N.mdl.J st X = fun b => N.J st (X b) := by
  funext b; simp only [Mdl.J, GNet.mdl_S, GNet.mdl_w, GNet.J]
theorem GNet.mdl_Q (N : GNet s n s' k p) : N.mdl.Q st X = fun b => N.Q st (X b) := by
  funext b; simp only [Mdl.Q, GNet.mdl_S, GNet.mdl_w, GNet.Q]

theorem GNet.Ok.forward (h : N.Ok st) (hB : 0 < B) (hx : IsBatch x B s n X) :
    ∃ t, Returns (N.mod.forward x) st t ∧ IsBatch t B s' k fun b => N.sem.f (N.w st) (X b) := by
  have := h.g.forward h.w hB hx
  rw [GNet.mdl_m, GNet.mdl_Y] at this
  obtain ⟨t, ht, s', hP, _⟩ := this.returns
  exact ⟨t, ht, hP⟩

theorem GNet.Ok.forwardMap_eq (h : N.Ok st) : forwardMap N.mod st s = N.sem.f (N.w st) := by
  funext z i
  obtain ⟨t, ht, hT⟩ := h.forward Nat.one_pos (ofSample_isBatch z)
  simp only [Returns] at ht
  simp only [forwardMap, ht]
  simpa using hT.2 0 i

theorem GNet.Ok.jacI (h : N.Ok st) (hB : 0 < B) (hx : IsBatch x B s n X) :
    ∃ t, Returns (N.mod.jacobian x none .input) st (some t) ∧ IsMat t B k n fun b => N.J st (X b) := by
  have := h.g.jacI h.w hB hx
  rw [GNet.mdl_m, GNet.mdl_J] at this
  exact this.returnsSome

theorem GNet.Ok.vjpI (h : N.Ok st) (hB : 0 < B) (hx : IsBatch x B s n X) {u : Tensor ℝ} {U} (hu : IsVec u B k U) :
    ∃ t, Returns (N.mod.vjp x none u .input) st (some t) ∧ IsVec t B n fun b => U b ᵥ* N.J st (X b) := by
  have := (h.g.vjpI h.w hB hx hu).2
  rw [GNet.mdl_m, GNet.mdl_J] at this
  exact this.returnsSome

theorem GNet.Ok.mjpI (h : N.Ok st) (hB : 0 < B) (hx : IsBatch x B s n X) {r : Nat} (hr : 0 < r) {A : Tensor ℝ} {Z}
    (hA : IsMat A B r k Z) :
    ∃ t, Returns (N.mod.mjp x none (some A) .input) st (some t) ∧ IsMat t B r n fun b => Z b * N.J st (X b) := by
  have := (h.g.mjpI h.w hB hx hr hA).2
  rw [GNet.mdl_m, GNet.mdl_J] at this
  exact this.returnsSome

theorem GNet.Ok.jTI (h : N.Ok st) (hB : 0 < B) (hx : IsBatch x B s n X) {A : Tensor ℝ} {Z} (fd td : Bool)
    (hA : MetricArg fd A B k Z) :
    ∃ t, Returns (N.mod.jTmjp x none (some A) .input fd td false) st (.tensor t) ∧
      MetricOut td t B n fun b => (N.J st (X b))ᵀ * Z b * N.J st (X b) := by
  have := (h.g.jTI fd td h.w hB hx hA).2
  rw [GNet.mdl_m, GNet.mdl_J] at this
  exact this.returnsTensor

theorem GNet.Ok.jTIdb (h : N.Ok st) (hB : 0 < B) (hx : IsBatch x B s n X) {A : Tensor ℝ} {d} (hA : IsVec A B k d) :
    ∃ t, Returns (N.mod.jTmjp x none (some A) .input true true true) st (.tensor t) ∧
      IsVec t B n fun b => d b ᵥ* N.Q st (X b) := by
  have := (h.g.jTIdb h.w hB hx hA).2
  rw [GNet.mdl_m, GNet.mdl_Q] at this
  exact this.returnsTensor
end

end NNJ
