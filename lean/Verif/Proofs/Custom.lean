import Verif.Spec.Custom
import Verif.Proofs.GNet
import Verif.Proofs.SameBut
import Verif.Proofs.NoneNet
import Verif.Proofs.Weights

/-!
Networks with layers that implement only `forward` and `jacobian`.  The inherited `jTmjp` is wrong for the diagonal flags (C29), so such a
network does not satisfy the contract; the network in which the layers have a repaired `jTmjp` does, and it differs only there.
-/

namespace NNJ
open Tensor Matrix

/-! ### a layer with a repaired `jTmjp` -/

/-- `Jᵀ M J` for all flags -/
def fixJT (jac : AbstractJacobian.Jac ℝ) (x : Tensor ℝ) (val : Option (Tensor ℝ)) (matrix : Option (Tensor ℝ)) (wrt : Wrt)
    (fromDiag toDiag diagBackprop : Bool) : Res (Option (Tensor ℝ)) := do
  let (fromDiag, toDiag) := if diagBackprop then (true, true) else (fromDiag, toDiag)
  match ← jac x val wrt with
  | none => pure none
  | some jacobian => do
    let matrix ← needR matrix
    let matrix ← if fromDiag then matrix.diagEmbed else pure matrix
    let r ← einsum% "bji,bjk,bkl->bil" [jacobian, matrix, jacobian]
    if toDiag then some <$> einsum% "bii->bi" [r] else pure (some r)

theorem fixJT_full (jac : AbstractJacobian.Jac ℝ) (x : Tensor ℝ) (val : Option (Tensor ℝ)) (A : Tensor ℝ) (wrt : Wrt) :
    AbstractJacobian.jTmjp jac x val (some A) wrt false false false = fixJT jac x val (some A) wrt false false false := by
  simp only [AbstractJacobian.jTmjp, fixJT, needR]
  cases jac x val wrt with
  | error e => rfl
  | ok r =>
    cases r with
    | none => rfl
    | some J =>
      simp only [Res.bind_ok, Bool.false_eq_true, if_false, pure_bind, bind_pure_comp]

theorem fixJT_core {B m n : Nat} {Jt A : Tensor ℝ} {J : Fin B → Matrix (Fin m) (Fin n) ℝ}
    {M : Fin B → Matrix (Fin m) (Fin m) ℝ} {jac : AbstractJacobian.Jac ℝ} {x : Tensor ℝ} {val : Option (Tensor ℝ)} {wrt : Wrt}
    {fd td : Bool} (hjac : jac x val wrt = .ok (some Jt)) (hJ : IsMat Jt B m n J) (hA : MetricArg fd A B m M) :
    Ret (fixJT jac x val (some A) wrt fd td false) (IsSome fun r => MetricOut td r B n fun b => (J b)ᵀ * M b * J b) := by
  unfold fixJT
  simp only [hjac, Res.bind_ok, needR]
  have key : ∀ {D : Tensor ℝ}, IsMat D B m m M → Ret (do
      let r ← einsum% "bji,bjk,bkl->bil" [Jt, D, Jt]
      if td = true then some <$> einsum% "bii->bi" [r] else pure (some r))
      (IsSome fun r => MetricOut td r B n fun b => (J b)ᵀ * M b * J b) := by
    intro D hD
    refine (ein_bji_bjk_bkl hJ hD).bind fun r hr => ?_
    cases td with
    | false => exact Ret.ok hr
    | true => exact (ein_bii hr).some
  cases fd with
  | false => exact key hA
  | true =>
    obtain ⟨d, hd, hM⟩ := hA
    refine (diagEmbed_vec hd).bind fun D hD => key ?_
    rw [show M = fun b => diagonal (d b) from funext hM]
    exact hD

theorem optW_pos {p : Nat} {P : Tensor ℝ → Prop} {q : Res (Option (Tensor ℝ))} (hp : 0 < p) (h : Ret q (IsSome P)) : Ret q (OptW p P) :=
  h.mono fun r hr => by rw [OptW, if_neg (by omega)]; exact hr

theorem leafOk_fix {sI sO : List Nat} {n k p : Nat} {fwd : Tensor ℝ → Res (Tensor ℝ)} {jac : AbstractJacobian.Jac ℝ}
    {f : (Fin n → ℝ) → Fin k → ℝ} {J : (Fin n → ℝ) → Matrix (Fin k) (Fin n) ℝ} {JW : (Fin n → ℝ) → Matrix (Fin k) (Fin p) ℝ}
    (hf : ∀ {B X x}, 0 < B → IsBatch x B sI n X → Ret (fwd x) fun v => IsBatch v B sO k fun b => f (X b))
    (hj : ∀ {B X x val}, 0 < B → IsBatch x B sI n X → (∀ v ∈ val, IsBatch v B sO k fun b => f (X b)) →
      ∃ t, jac x val .input = .ok (some t) ∧ IsMat t B k n fun b => J (X b))
    (hjw : ∀ {B X x val}, 0 < p → 0 < B → IsBatch x B sI n X → (∀ v ∈ val, IsBatch v B sO k fun b => f (X b)) →
      ∃ t, jac x val .weight = .ok (some t) ∧ IsMat t B k p fun b => JW (X b))
    (hw : p = 0 → ∀ x val, jac x val .weight = .ok none) :
    LeafOk { AbstractJacobian.defaults fwd jac with jTmjp := fixJT jac } sI n sO k p f J JW := by
  refine {
    forward := hf, jacI := fun hB hx => ?_, jacW := fun hB hx => ?_
    vjpI := fun hB hx hv hu => ?_, vjpW := fun hB hx hv hu => ?_, mjpI := fun hB hx hv hr hA => ?_
    mjpW := fun hB hx hv hr hA => ?_, jTI := fun fd td hB hx hv hA => ?_, jTW := fun fd td hB hx hv hA => ?_
    jT_db := rfl, jvpI := fun hB hx hv hu => ?_, jvpW := fun hB hx hv hu => ?_, jmpI := fun hB hx hv hA => ?_
    jmpW := fun hB hx hv hA => ?_, jmjI := fun fd td hB hx hv hA => ?_
    jmjW := fun hp => fun fd td hB hx hv hA => ?_, jmj_db := rfl }
  · obtain ⟨d, hd, hD⟩ := hj hB hx (val := none) (by simp)
    exact ⟨some d, hd, hD⟩
  · rcases Nat.eq_zero_or_pos p with hp | hp
    · subst hp; simp only [AbstractJacobian.defaults, hw rfl]; exact optW_zero
    · obtain ⟨d, hd, hD⟩ := hjw hp hB hx (val := none) (by simp)
      exact optW_pos hp ⟨some d, hd, hD⟩
  · obtain ⟨d, hd, hD⟩ := hj hB hx hv
    simp only [AbstractJacobian.defaults, AbstractJacobian.vjp, hd, Res.bind_ok]
    exact (ein_bi_bij hu hD).some
  · rcases Nat.eq_zero_or_pos p with hp | hp
    · subst hp; simp only [AbstractJacobian.defaults, AbstractJacobian.vjp, hw rfl, Res.bind_ok]; exact optW_zero
    · obtain ⟨d, hd, hD⟩ := hjw hp hB hx hv
      simp only [AbstractJacobian.defaults, AbstractJacobian.vjp, hd, Res.bind_ok]
      exact optW_pos hp (ein_bi_bij hu hD).some
  · obtain ⟨d, hd, hD⟩ := hj hB hx hv
    simp only [AbstractJacobian.defaults, AbstractJacobian.mjp, hd, Res.bind_ok, needR]
    exact (ein_bij_bjk hA hD).some
  · rcases Nat.eq_zero_or_pos p with hp | hp
    · subst hp; simp only [AbstractJacobian.defaults, AbstractJacobian.mjp, hw rfl, Res.bind_ok]; exact optW_zero
    · obtain ⟨d, hd, hD⟩ := hjw hp hB hx hv
      simp only [AbstractJacobian.defaults, AbstractJacobian.mjp, hd, Res.bind_ok, needR]
      exact optW_pos hp (ein_bij_bjk hA hD).some
  · obtain ⟨d, hd, hD⟩ := hj hB hx hv
    exact fixJT_core hd hD hA
  · rcases Nat.eq_zero_or_pos p with hp | hp
    · subst hp; simp only [fixJT, hw rfl, Res.bind_ok]; exact optW_zero
    · obtain ⟨d, hd, hD⟩ := hjw hp hB hx hv
      exact optW_pos hp (fixJT_core hd hD hA)
  · obtain ⟨d, hd, hD⟩ := hj hB hx hv
    simp only [AbstractJacobian.defaults, AbstractJacobian.jvp, hd, Res.bind_ok]
    exact (ein_bij_bj hD hu).some
  · rcases Nat.eq_zero_or_pos p with hp | hp
    · subst hp; simp only [AbstractJacobian.defaults, AbstractJacobian.jvp, hw rfl, Res.bind_ok]; exact optW_zero
    · obtain ⟨d, hd, hD⟩ := hjw hp hB hx hv
      simp only [AbstractJacobian.defaults, AbstractJacobian.jvp, hd, Res.bind_ok]
      exact optW_pos hp (ein_bij_bj hD hu).some
  · obtain ⟨d, hd, hD⟩ := hj hB hx hv
    simp only [AbstractJacobian.defaults, AbstractJacobian.jmp, hd, Res.bind_ok, needR]
    exact (ein_bij_bjk hD hA).some
  · rcases Nat.eq_zero_or_pos p with hp | hp
    · subst hp; simp only [AbstractJacobian.defaults, AbstractJacobian.jmp, hw rfl, Res.bind_ok]; exact optW_zero
    · obtain ⟨d, hd, hD⟩ := hjw hp hB hx hv
      simp only [AbstractJacobian.defaults, AbstractJacobian.jmp, hd, Res.bind_ok, needR]
      exact optW_pos hp (ein_bij_bjk hD hA).some
  · obtain ⟨d, hd, hD⟩ := hj hB hx hv
    exact AbstractJacobian.jmjTp_core hd hD hA
  · obtain ⟨d, hd, hD⟩ := hjw hp hB hx hv
    exact AbstractJacobian.jmjTp_core hd hD hA

theorem jac_noneIff_of {fwd : Tensor ℝ → Res (Tensor ℝ)} {jac : AbstractJacobian.Jac ℝ} {p : Nat}
    (hw : p = 0 → ∀ x val, jac x val .weight = .ok none) (hi : ∀ x val wrt, (0 < p ∨ wrt = .input) → jac x val wrt ≠ .ok none) :
    NoneIffR (AbstractJacobian.defaults fwd jac) (p = 0) := by
  rcases Nat.eq_zero_or_pos p with hp | hp
  · exact (jac_noneIff (fun x val => by rw [hw hp]; exact RPost.ok rfl) fun x val r hr e => hi x val .input (.inr rfl) (by rw [hr, e])).iff (by simp [hp])
  have hn : ∀ x val wrt, RPost (jac x val wrt) fun r => r ≠ none := fun x val wrt r hr e => hi x val wrt (.inl hp) (by rw [hr, e])
  have e : (p = 0) ↔ False := ⟨fun h => by omega, False.elim⟩
  constructor <;> intros <;> simp only [AbstractJacobian.defaults, e, iff_false]
  · exact hn _ _ _
  all_goals first
    | exact hn _ _ _
    | (refine (hn _ _ _).bind ?_; intro r hr; cases r <;> [exact absurd rfl hr; (rpost <;> simp)])

/-! ### networks -/

/-- the layer as a stateless layer with a repaired `jTmjp` -/
def fixMod (m : Mod ℝ) (p : Nat) : Mod ℝ :=
  PureLayer.toMod (fun st => { AbstractJacobian.defaults (fun x => (m.forward x st).1) (fun x val wrt => (m.jacobian x val wrt st).1) with
    jTmjp := fixJT fun x val wrt => (m.jacobian x val wrt st).1 }) m.id p m.params

noncomputable def ILayer.cmdl {s s' : List Nat} {n k p : Nat} (L : ILayer s n s' k p) : Mdl s n s' k p :=
  Mdl.leaf (fixMod L.mod p) s n s' k p L.sem L.params L.w

mutual
/-- the network with repaired layers -/
noncomputable def GNet.cmdl : {s s' : List Nat} → {n k p : Nat} → GNet s n s' k p → Mdl s n s' k p
  | _, _, _, _, _, .net N => N.mdl
  | _, _, _, _, _, .layer L => L.cmdl
  | _, _, _, _, _, .seq id c => seqMdl id c.cmchain
  | _, _, _, _, _, .skip id fid ch => skipMdl id (seqMdl fid ch.cmchain)
noncomputable def GChain.cmchain : {s s' : List Nat} → {n k p l : Nat} → GChain s n s' k p l → MChain s n s' k p l
  | _, _, _, _, _, _, .nil s n _ _ => .nil s n
  | _, _, _, _, _, _, .snoc c m => .snoc c.cmchain m.cmdl
end

mutual
theorem GNet.cmdl_id : {s s' : List Nat} → {n k p : Nat} → (N : GNet s n s' k p) → N.cmdl.m.id = N.mod.id
  | _, _, _, _, _, .net N => by simp only [GNet.cmdl, GNet.mod, Net.mdl_m]
  | _, _, _, _, _, .layer L => by simp only [GNet.cmdl, GNet.mod, ILayer.cmdl, Mdl.leaf, fixMod, PureLayer.toMod]
  | _, _, _, _, _, .seq id c => by simp only [GNet.cmdl, GNet.mod, seqMdl, Sequential.mod]
  | _, _, _, _, _, .skip id fid ch => by simp only [GNet.cmdl, GNet.mod, skipMdl, SkipConnection.mod]
end

mutual
theorem GNet.cmdl_S : {s s' : List Nat} → {n k p : Nat} → (N : GNet s n s' k p) → N.cmdl.S = N.sem
  | _, _, _, _, _, .net N => by simp only [GNet.cmdl, GNet.sem, Net.mdl_S]
  | _, _, _, _, _, .layer L => by simp only [GNet.cmdl, GNet.sem, ILayer.cmdl, Mdl.leaf]
  | _, _, _, _, _, .seq id c => by simp only [GNet.cmdl, GNet.sem, seqMdl, GChain.cmchain_S c]
  | _, _, _, _, _, .skip id fid ch => by simp only [GNet.cmdl, GNet.sem, skipMdl, seqMdl, GChain.cmchain_S ch]
theorem GChain.cmchain_S : {s s' : List Nat} → {n k p l : Nat} → (c : GChain s n s' k p l) → c.cmchain.S = c.sem
  | _, _, _, _, _, _, .nil _ _ _ _ => by simp only [GChain.cmchain, MChain.S, GChain.sem]
  | _, _, _, _, _, _, .snoc c m => by simp only [GChain.cmchain, MChain.S, GChain.sem, GChain.cmchain_S c, GNet.cmdl_S m]
end

mutual
theorem GNet.cmdl_ids : {s s' : List Nat} → {n k p : Nat} → (N : GNet s n s' k p) → N.cmdl.ids = N.ids
  | _, _, _, _, _, .net N => by simp only [GNet.cmdl, GNet.ids, Net.mdl_ids]
  | _, _, _, _, _, .layer L => by simp only [GNet.cmdl, GNet.ids, ILayer.cmdl, Mdl.leaf, fixMod, PureLayer.toMod]
  | _, _, _, _, _, .seq id c => by simp only [GNet.cmdl, GNet.ids, seqMdl, GChain.cmchain_ids c]
  | _, _, _, _, _, .skip id fid ch => by simp only [GNet.cmdl, GNet.ids, skipMdl, seqMdl, GChain.cmchain_ids ch]
theorem GChain.cmchain_ids : {s s' : List Nat} → {n k p l : Nat} → (c : GChain s n s' k p l) → c.cmchain.ids = c.ids
  | _, _, _, _, _, _, .nil _ _ _ _ => by simp only [GChain.cmchain, MChain.ids, GChain.ids]
  | _, _, _, _, _, _, .snoc c m => by simp only [GChain.cmchain, MChain.ids, GChain.ids, GChain.cmchain_ids c, GNet.cmdl_ids m]
end

mutual
theorem GNet.cmdl_w : {s s' : List Nat} → {n k p : Nat} → (N : GNet s n s' k p) → N.cmdl.w = N.w
  | _, _, _, _, _, .net N => by funext st; simp only [GNet.cmdl, GNet.w, Net.mdl_w]
  | _, _, _, _, _, .layer L => by funext st; simp only [GNet.cmdl, GNet.w, ILayer.cmdl, Mdl.leaf]
  | _, _, _, _, _, .seq id c => by funext st; simp only [GNet.cmdl, GNet.w, seqMdl, GChain.cmchain_w c]
  | _, _, _, _, _, .skip id fid ch => by funext st; simp only [GNet.cmdl, GNet.w, skipMdl, seqMdl, GChain.cmchain_w ch]
theorem GChain.cmchain_w : {s s' : List Nat} → {n k p l : Nat} → (c : GChain s n s' k p l) → c.cmchain.w = c.w
  | _, _, _, _, _, _, .nil _ _ _ _ => by funext st; simp only [GChain.cmchain, MChain.w, GChain.w]
  | _, _, _, _, _, _, .snoc c m => by funext st; simp only [GChain.cmchain, MChain.w, GChain.w, GChain.cmchain_w c, GNet.cmdl_w m]
end

mutual
theorem GNet.cmdl_wired : {s s' : List Nat} → {n k p : Nat} → (N : GNet s n s' k p) → (st : Store ℝ) → (N.cmdl.wired st ↔ N.Wired st)
  | _, _, _, _, _, .net N, st => by simp only [GNet.cmdl, GNet.Wired, Net.mdl_wired]
  | _, _, _, _, _, .layer L, st => by simp only [GNet.cmdl, GNet.Wired, ILayer.cmdl, Mdl.leaf]
  | _, _, _, _, _, .seq id c, st => by simp only [GNet.cmdl, GNet.Wired, seqMdl, GChain.cmchain_wired c id st]
  | _, _, _, _, _, .skip id fid ch, st => by
    simp only [GNet.cmdl, GNet.Wired, skipMdl, seqMdl, GChain.cmchain_wired ch fid st, Sequential.mod]
    tauto
theorem GChain.cmchain_wired : {s s' : List Nat} → {n k p l : Nat} → (c : GChain s n s' k p l) → (q : Nat) → (st : Store ℝ) →
    (c.cmchain.Wired q st ↔ c.Wired q st)
  | _, _, _, _, _, _, .nil _ _ _ _, _, _ => by simp only [GChain.cmchain, MChain.Wired, GChain.Wired]
  | _, _, _, _, _, _, .snoc c m, q, st => by
    simp only [GChain.cmchain, MChain.Wired, GChain.Wired, GChain.cmchain_wired c q st, GNet.cmdl_wired m st, GNet.cmdl_id m]
end

mutual
theorem GNet.cmdl_fwdI : {s s' : List Nat} → {n k p : Nat} → (N : GNet s n s' k p) → (N.cmdl.fwdI ↔ N.FwdI)
  | _, _, _, _, _, .net N => by simp only [GNet.cmdl, GNet.FwdI, Net.mdl_fwdI]
  | _, _, _, _, _, .layer L => by simp only [GNet.cmdl, GNet.FwdI, ILayer.cmdl, Mdl.leaf]
  | _, _, _, _, _, .seq id c => by simp only [GNet.cmdl, GNet.FwdI, seqMdl, GChain.cmchain_fwdI c]
  | _, _, _, _, _, .skip id fid ch => by simp only [GNet.cmdl, GNet.FwdI, skipMdl, seqMdl, GChain.cmchain_fwdI ch]
theorem GChain.cmchain_fwdI : {s s' : List Nat} → {n k p l : Nat} → (c : GChain s n s' k p l) → (c.cmchain.fwdI ↔ c.FwdI)
  | _, _, _, _, _, _, .nil _ _ _ _ => by simp only [GChain.cmchain, MChain.fwdI, MChain.All, GChain.FwdI]
  | _, _, _, _, _, _, .snoc c m => by
    have := GChain.cmchain_fwdI c
    simp only [MChain.fwdI] at this
    simp only [GChain.cmchain, MChain.fwdI, MChain.All, GChain.FwdI, this, GNet.cmdl_fwdI m]
end

mutual
theorem GNet.cmdl_fwdW : {s s' : List Nat} → {n k p : Nat} → (N : GNet s n s' k p) → (N.cmdl.fwdW ↔ N.FwdW)
  | _, _, _, _, _, .net N => by simp only [GNet.cmdl, GNet.FwdW, Net.mdl_fwdW]
  | _, _, _, _, _, .layer L => by simp only [GNet.cmdl, GNet.FwdW, ILayer.cmdl, Mdl.leaf]
  | _, _, _, _, _, .seq id c => by simp only [GNet.cmdl, GNet.FwdW, seqMdl, GChain.cmchain_fwdW c]
  | _, _, _, _, _, .skip id fid ch => by simp only [GNet.cmdl, GNet.FwdW, skipMdl, seqMdl, GChain.cmchain_fwdW ch]
theorem GChain.cmchain_fwdW : {s s' : List Nat} → {n k p l : Nat} → (c : GChain s n s' k p l) → (c.cmchain.fwdW ↔ c.FwdW)
  | _, _, _, _, _, _, .nil _ _ _ _ => by simp only [GChain.cmchain, MChain.fwdW, MChain.All, GChain.FwdW]
  | _, _, _, _, _, _, .snoc c m => by
    have := GChain.cmchain_fwdW c
    simp only [MChain.fwdW] at this
    simp only [GChain.cmchain, MChain.fwdW, MChain.All, GChain.FwdW, this, GNet.cmdl_fwdW m]
end

mutual
theorem GNet.FwdI.pushW : {s s' : List Nat} → {n k p : Nat} → {N : GNet s n s' k p} → N.FwdI → N.cmdl.pushW
  | _, _, _, _, _, .net N, h => by
    simp only [GNet.FwdI] at h
    simp only [GNet.cmdl, Net.mdl_pushW]; exact h.pushW
  | _, _, _, _, _, .layer L, _ => by simp only [GNet.cmdl, ILayer.cmdl, Mdl.leaf]
  | _, _, _, _, _, .seq id c, h => by
    simp only [GNet.FwdI] at h
    simp only [GNet.cmdl, seqMdl]; exact GChain.FwdI.pushW h
  | _, _, _, _, _, .skip id fid ch, h => by
    simp only [GNet.FwdI] at h
    simp only [GNet.cmdl, skipMdl, seqMdl]; exact GChain.FwdI.pushW h
theorem GChain.FwdI.pushW : {s s' : List Nat} → {n k p l : Nat} → {c : GChain s n s' k p l} → c.FwdI → c.cmchain.pushW
  | _, _, _, _, _, _, .nil _ _ _ _, _ => by simp only [GChain.cmchain, MChain.pushW]
  | _, _, _, _, _, _, .snoc c m, h => by
    simp only [GChain.FwdI] at h
    simp only [GChain.cmchain, MChain.pushW]
    exact ⟨GChain.FwdI.pushW h.1, .inr (m.cmdl_fwdI.2 h.2), .inr (GNet.FwdI.pushW h.2)⟩
end

mutual
theorem GNet.cmdl_blocks : {s s' : List Nat} → {n k p : Nat} → (N : GNet s n s' k p) → (v : PyVal ℝ) → (B : Nat) →
    (Z : Fin B → Matrix (Fin p) (Fin p) ℝ) → (N.cmdl.blocks v B Z ↔ N.Blocks v B Z)
  | _, _, _, _, _, .net N, _, B, Z => by simp only [GNet.cmdl, GNet.Blocks, Net.mdl_blocks]
  | _, _, _, _, _, .layer L, _, _, _ => by simp only [GNet.cmdl, GNet.Blocks, ILayer.cmdl, Mdl.leaf, isTensor_iff]
  | _, _, _, _, _, .seq id c, _, B, Z => by simp only [GNet.cmdl, GNet.Blocks, seqMdl, GChain.cmchain_blocks c _ B Z]
  | _, _, _, _, _, .skip id fid ch, _, B, Z => by simp only [GNet.cmdl, GNet.Blocks, skipMdl, seqMdl, GChain.cmchain_blocks ch _ B Z]
theorem GChain.cmchain_blocks : {s s' : List Nat} → {n k p l : Nat} → (c : GChain s n s' k p l) → (vs : List (PyVal ℝ)) → (B : Nat) →
    (Z : Fin B → Matrix (Fin p) (Fin p) ℝ) → (c.cmchain.blocks vs B Z ↔ c.Blocks vs B Z)
  | _, _, _, _, _, _, .nil _ _ _ _, _, _, _ => by simp only [GChain.cmchain, MChain.blocks, GChain.Blocks]
  | _, _, _, _, _, _, .snoc c m, vs, B, Z => by
    simp only [GChain.cmchain, MChain.blocks, GChain.Blocks, GChain.cmchain_blocks c _ B, GNet.cmdl_blocks m _ B]
    rfl
end

section
variable {s s' : List Nat} {n k p : Nat} {C : Custom s n s' k p}

theorem Custom.w_of (C : Custom s n s' k p) {st st' : Store ℝ} (e : st'.param = st.param) : C.w st' = C.w st := by
  have key : ∀ is j, flatAt st' is j = flatAt st is j := by
    intro is
    induction is with
    | nil => intro j; rfl
    | cons i is ih => intro j; simp only [flatAt, e, ih]
  funext i; exact key _ _

theorem Custom.Right.good (h : C.Right) : Good C.layer.cmdl :=
  good_leaf rfl h.hn h.hk h.npos h.kpos (fun e hw => h.params_of e.param hw) (fun e => C.w_of e) fun st hw =>
    leafOk_fix (fun hB hx => h.forward hw hB hx) (fun hB hx hv => h.jacobian hw hB hx hv)
      (fun hp hB hx hv => h.jacobianW hp hw hB hx hv) fun hp x val => h.jacobianNone hp st x val

theorem Custom.Right.noneIff (h : C.Right) : NoneIff C.mod :=
  NoneIffR.toMod fun st => jac_noneIff_of (fun hp x val => h.jacobianNone hp st x val) fun x val wrt => h.noNone st x val wrt

theorem Custom.sameBut (C : Custom s n s' k p) : SameBut C.mod C.layer.cmdl.m := by
  refine ⟨rfl, rfl, rfl, rfl, rfl, rfl, rfl, rfl, rfl, rfl, fun x val A wrt => ?_⟩
  funext st
  exact congrArg (fun r => ((do let r ← r; pure (PyVal.ofOption r) : Res (PyVal ℝ)), st)) (fixJT_full (C.jac st) x val A wrt)

theorem Custom.Right.diff (h : C.Right) : C.layer.sem.Diff := fun w x hs => h.deriv w x hs
end

mutual
theorem GNet.cgood : {s s' : List Nat} → {n k p : Nat} → (N : GNet s n s' k p) → N.Customs → N.ids.Nodup → Good N.cmdl
  | _, _, _, _, _, .net N, _, hnd => by
    simp only [GNet.cmdl]
    exact N.good (by simpa only [GNet.ids] using hnd)
  | _, _, _, _, _, .layer L, he, _ => by
    simp only [GNet.cmdl]
    simp only [GNet.Customs] at he
    obtain ⟨C, hC, rfl⟩ := he
    exact hC.good
  | _, _, _, _, _, .seq id c, he, hnd => by
    simp only [GNet.cmdl]
    simp only [GNet.ids] at hnd
    simp only [GNet.Customs] at he
    exact good_seq (GChain.cgood c he (List.nodup_cons.1 hnd).2) (by rw [GChain.cmchain_ids]; exact hnd)
  | _, _, _, _, _, .skip id fid ch, he, hnd => by
    simp only [GNet.cmdl]
    simp only [GNet.ids] at hnd
    simp only [GNet.Customs] at he
    have h2 := (List.nodup_cons.1 hnd).2
    exact good_skip (good_seq (GChain.cgood ch he (List.nodup_cons.1 h2).2) (by rw [GChain.cmchain_ids]; exact h2)) trivial
theorem GChain.cgood : {s s' : List Nat} → {n k p l : Nat} → (c : GChain s n s' k p l) → c.Customs → c.ids.Nodup → c.cmchain.AllGood
  | _, _, _, _, _, _, .nil _ _ hs hn, _, _ => by simp only [GChain.cmchain, MChain.AllGood]; exact ⟨hs, hn⟩
  | _, _, _, _, _, _, .snoc c m, he, hnd => by
    simp only [GChain.ids, List.nodup_append] at hnd
    simp only [GChain.Customs] at he
    simp only [GChain.cmchain, MChain.AllGood]
    exact ⟨GChain.cgood c he.1 hnd.1, GNet.cgood m he.2 hnd.2.1⟩
end

mutual
theorem GNet.noneIff : {s s' : List Nat} → {n k p : Nat} → (N : GNet s n s' k p) → N.Customs → NoneIff N.mod
  | _, _, _, _, _, .net N, _ => by simp only [GNet.mod]; exact N.noneIff
  | _, _, _, _, _, .layer L, he => by
    simp only [GNet.Customs] at he
    obtain ⟨C, hC, rfl⟩ := he
    simp only [GNet.mod]
    exact hC.noneIff
  | _, _, _, _, _, .seq _ c, he => by
    simp only [GNet.Customs] at he
    simp only [GNet.mod]
    exact Sequential.noneIff _ _ (GChain.noneIff c he)
  | _, _, _, _, _, .skip _ _ ch, he => by
    simp only [GNet.Customs] at he
    simp only [GNet.mod]
    exact SkipConnection.noneIff _ (Sequential.noneIff _ _ (GChain.noneIff ch he))
theorem GChain.noneIff : {s s' : List Nat} → {n k p l : Nat} → (c : GChain s n s' k p l) → c.Customs → ∀ m ∈ c.mods, NoneIff m
  | _, _, _, _, _, _, .nil _ _ _ _, _ => by simp [GChain.mods]
  | _, _, _, _, _, _, .snoc c m, he => by
    simp only [GChain.Customs] at he
    have h1 := GChain.noneIff c he.1
    have h2 := GNet.noneIff m he.2
    simp only [GChain.mods, List.mem_append, List.mem_singleton]
    rintro m' (h | rfl)
    · exact h1 _ h
    · exact h2
end

mutual
theorem GNet.sameBut : {s s' : List Nat} → {n k p : Nat} → (N : GNet s n s' k p) → N.Customs → SameBut N.mod N.cmdl.m
  | _, _, _, _, _, .net N, _ => by simp only [GNet.mod, GNet.cmdl, Net.mdl_m]; exact SameBut.refl _
  | _, _, _, _, _, .layer L, he => by
    simp only [GNet.Customs] at he
    obtain ⟨C, hC, rfl⟩ := he
    simp only [GNet.mod, GNet.cmdl]
    exact C.sameBut
  | _, _, _, _, _, .seq _ c, he => by
    simp only [GNet.Customs] at he
    simp only [GNet.mod, GNet.cmdl, seqMdl]
    exact Sequential.sameBut (GChain.sameBut c he) (GChain.noneIff c he) _ _
  | _, _, _, _, _, .skip _ _ ch, he => by
    simp only [GNet.Customs] at he
    simp only [GNet.mod, GNet.cmdl, skipMdl, seqMdl]
    exact SkipConnection.sameBut (Sequential.sameBut (GChain.sameBut ch he) (GChain.noneIff ch he) _ _) _
theorem GChain.sameBut : {s s' : List Nat} → {n k p l : Nat} → (c : GChain s n s' k p l) → c.Customs →
    List.Forall₂ SameBut c.mods c.cmchain.mods
  | _, _, _, _, _, _, .nil _ _ _ _, _ => by simp only [GChain.mods, GChain.cmchain, MChain.mods]; exact .nil
  | _, _, _, _, _, _, .snoc c m, he => by
    simp only [GChain.Customs] at he
    simp only [GChain.mods, GChain.cmchain, MChain.mods]
    exact List.rel_append (GChain.sameBut c he.1) (.cons (GNet.sameBut m he.2) .nil)
end

mutual
theorem GNet.cdiff : {s s' : List Nat} → {n k p : Nat} → (N : GNet s n s' k p) → N.Customs → N.sem.Diff
  | _, _, _, _, _, .net N, _ => by simp only [GNet.sem]; exact N.diff
  | _, _, _, _, _, .layer L, he => by
    simp only [GNet.Customs] at he
    obtain ⟨C, hC, rfl⟩ := he
    simp only [GNet.sem]; exact hC.diff
  | _, _, _, _, _, .seq id c, he => by
    simp only [GNet.Customs] at he
    simp only [GNet.sem]; exact c.cdiff he
  | _, _, _, _, _, .skip id fid ch, he => by
    simp only [GNet.Customs] at he
    simp only [GNet.sem]; exact (ch.cdiff he).skip
theorem GChain.cdiff : {s s' : List Nat} → {n k p l : Nat} → (c : GChain s n s' k p l) → c.Customs → c.sem.Diff
  | _, _, _, _, _, _, .nil _ _ _ _, _ => by simp only [GChain.sem]; exact Sem.Diff.id
  | _, _, _, _, _, _, .snoc c m, he => by
    simp only [GChain.Customs] at he
    simp only [GChain.sem]; exact (c.cdiff he.1).comp (m.cdiff he.2)
end

/-! ### weights -/

mutual
theorem GNet.mod_params : {s s' : List Nat} → {n k p : Nat} → (N : GNet s n s' k p) → N.mod.params = N.paramIds
  | _, _, _, _, _, .net N => by simp only [GNet.mod, GNet.paramIds, Net.mod_params]
  | _, _, _, _, _, .layer L => by simp only [GNet.mod, GNet.paramIds]
  | _, _, _, _, _, .seq id c => by simp only [GNet.mod, GNet.paramIds, Sequential.mod]; exact c.mods_params
  | _, _, _, _, _, .skip id fid ch => by simp only [GNet.mod, GNet.paramIds, Sequential.mod, SkipConnection.mod]; exact ch.mods_params
theorem GChain.mods_params : {s s' : List Nat} → {n k p l : Nat} → (c : GChain s n s' k p l) → (c.mods.map Mod.params).flatten = c.paramIds
  | _, _, _, _, _, _, .nil _ _ _ _ => by simp only [GChain.mods, GChain.paramIds]; rfl
  | _, _, _, _, _, _, .snoc c m => by simp [GChain.mods, GChain.paramIds, GChain.mods_params c, GNet.mod_params m]
end

theorem GNet.parameters {s s' : List Nat} {n k p : Nat} (N : GNet s n s' k p) (h : N.paramIds.Nodup) : N.mod.parameters = N.paramIds := by
  rw [Mod.parameters, GNet.mod_params]
  exact dedupFirst_nodup _ _ h (by simp)

mutual
theorem GNet.w_flat : {s s' : List Nat} → {n k p : Nat} → (N : GNet s n s' k p) → (st : Store ℝ) → N.Wired st → N.Customs →
    flatLen st N.paramIds = p ∧ ∀ i : Fin p, N.w st i = flatAt st N.paramIds i
  | _, _, _, _, _, .net N, st, h, _ => by
    simp only [GNet.Wired] at h
    simp only [GNet.paramIds, GNet.w]
    exact N.w_flat st (Net.Wired.shapes N st h)
  | _, _, _, _, _, .layer L, st, h, he => by
    simp only [GNet.Customs] at he
    obtain ⟨C, hC, rfl⟩ := he
    simp only [GNet.Wired] at h
    simp only [GNet.paramIds, GNet.w]
    exact ⟨hC.len h, fun i => rfl⟩
  | _, _, _, _, _, .seq _ c, st, h, he => by
    simp only [GNet.Wired] at h
    simp only [GNet.Customs] at he
    simp only [GNet.paramIds, GNet.w]
    exact c.w_flat _ st h.2 he
  | _, _, _, _, _, .skip _ _ ch, st, h, he => by
    simp only [GNet.Wired] at h
    simp only [GNet.Customs] at he
    simp only [GNet.paramIds, GNet.w]
    exact ch.w_flat _ st h.2.2 he
theorem GChain.w_flat : {s s' : List Nat} → {n k p l : Nat} → (c : GChain s n s' k p l) → (q : Nat) → (st : Store ℝ) → c.Wired q st → c.Customs →
    flatLen st c.paramIds = p ∧ ∀ i : Fin p, c.w st i = flatAt st c.paramIds i
  | _, _, _, _, _, _, .nil _ _ _ _, _, _, _, _ => by simp only [GChain.paramIds]; exact ⟨rfl, fun i => i.elim0⟩
  | _, _, _, _, _, _, .snoc c m, q, st, h, he => by
    simp only [GChain.Wired] at h
    simp only [GChain.Customs] at he
    obtain ⟨hc, hcw⟩ := c.w_flat q st h.1 he.1
    obtain ⟨hm, hmw⟩ := m.w_flat st h.2.1 he.2
    simp only [GChain.paramIds, flatLen_append, hc, hm, GChain.w, flatAt_append]
    refine ⟨trivial, fun j => ?_⟩
    refine Fin.addCases (fun a => ?_) (fun a => ?_) j
    · rw [Fin.append_left, Fin.val_castAdd, if_pos a.2, hcw]
    · rw [Fin.append_right, Fin.val_natAdd, if_neg (by omega), hmw]
      congr 1; omega
end

/-! ### the contract in the vocabulary of the property statements -/

section
variable {s s' : List Nat} {n k p : Nat} {N : GNet s n s' k p} {st : Store ℝ}
variable {B : Nat} {X : Fin B → Fin n → ℝ} {x : Tensor ℝ}

theorem GNet.COk.w (h : N.COk st) : N.cmdl.wired st := (N.cmdl_wired st).2 h.wired
theorem GNet.COk.g (h : N.COk st) : Good N.cmdl := N.cgood h.customs h.nodup
theorem GNet.COk.same (h : N.COk st) : SameBut N.mod N.cmdl.m := N.sameBut h.customs

noncomputable def GNet.JW (N : GNet s n s' k p) (st : Store ℝ) (x : Fin n → ℝ) : Matrix (Fin k) (Fin p) ℝ := N.sem.JW (N.w st) x

theorem GNet.cmdl_Y (N : GNet s n s' k p) : N.cmdl.Y st X = fun b => N.sem.f (N.w st) (X b) := by
  funext b; simp only [Mdl.Y, GNet.cmdl_S, GNet.cmdl_w]
theorem GNet.cmdl_J (N : GNet s n s' k p) : N.cmdl.J st X = fun b => N.J st (X b) := by
  funext b; simp only [Mdl.J, GNet.cmdl_S, GNet.cmdl_w, GNet.J]
theorem GNet.cmdl_JW (N : GNet s n s' k p) : N.cmdl.JW st X = fun b => N.JW st (X b) := by
  funext b; simp only [Mdl.JW, GNet.cmdl_S, GNet.cmdl_w, GNet.JW]

theorem GNet.COk.forward (h : N.COk st) (hB : 0 < B) (hx : IsBatch x B s n X) :
    ∃ t, Returns (N.mod.forward x) st t ∧ IsBatch t B s' k fun b => N.sem.f (N.w st) (X b) := by
  have := h.g.forward h.w hB hx
  rw [← h.same.forward, GNet.cmdl_Y] at this
  obtain ⟨t, ht, s', hP, _⟩ := this.returns
  exact ⟨t, ht, hP⟩

theorem GNet.COk.forwardMap_eq (h : N.COk st) : forwardMap N.mod st s = N.sem.f (N.w st) := by
  funext z i
  obtain ⟨t, ht, hT⟩ := h.forward Nat.one_pos (ofSample_isBatch z)
  simp only [Returns] at ht
  simp only [forwardMap, ht]
  simpa using hT.2 0 i

theorem GNet.COk.jacI (h : N.COk st) (hB : 0 < B) (hx : IsBatch x B s n X) :
    ∃ t, Returns (N.mod.jacobian x none .input) st (some t) ∧ IsMat t B k n fun b => N.J st (X b) := by
  have := h.g.jacI h.w hB hx
  rw [← h.same.jacobian, GNet.cmdl_J] at this
  exact this.returnsSome

theorem GNet.COk.jacW (h : N.COk st) (hB : 0 < B) (hx : IsBatch x B s n X) (hp : 0 < p) :
    ∃ t, Returns (N.mod.jacobian x none .weight) st (some t) ∧ IsMat t B k p fun b => N.JW st (X b) := by
  have := h.g.jacW h.w hB hx (.inl hp)
  rw [← h.same.jacobian, GNet.cmdl_JW] at this
  exact this.returnsOptW.1 hp

theorem GNet.COk.vjpI (h : N.COk st) (hB : 0 < B) (hx : IsBatch x B s n X) {u : Tensor ℝ} {U} (hu : IsVec u B k U) :
    ∃ t, Returns (N.mod.vjp x none u .input) st (some t) ∧ IsVec t B n fun b => U b ᵥ* N.J st (X b) := by
  have := (h.g.vjpI h.w hB hx hu).2
  rw [← h.same.vjp, GNet.cmdl_J] at this
  exact this.returnsSome

theorem GNet.COk.vjpW (h : N.COk st) (hB : 0 < B) (hx : IsBatch x B s n X) (hp : 0 < p) {u : Tensor ℝ} {U} (hu : IsVec u B k U) :
    ∃ t, Returns (N.mod.vjp x none u .weight) st (some t) ∧ IsVec t B p fun b => U b ᵥ* N.JW st (X b) := by
  have := (h.g.vjpW h.w hB hx hu).2
  rw [← h.same.vjp, GNet.cmdl_JW] at this
  exact this.returnsOptW.1 hp

theorem GNet.COk.mjpI (h : N.COk st) (hB : 0 < B) (hx : IsBatch x B s n X) {r : Nat} (hr : 0 < r) {A : Tensor ℝ} {Z}
    (hA : IsMat A B r k Z) :
    ∃ t, Returns (N.mod.mjp x none (some A) .input) st (some t) ∧ IsMat t B r n fun b => Z b * N.J st (X b) := by
  have := (h.g.mjpI h.w hB hx hr hA).2
  rw [← h.same.mjp, GNet.cmdl_J] at this
  exact this.returnsSome

theorem GNet.COk.mjpW (h : N.COk st) (hB : 0 < B) (hx : IsBatch x B s n X) (hp : 0 < p) {r : Nat} (hr : 0 < r) {A : Tensor ℝ} {Z}
    (hA : IsMat A B r k Z) :
    ∃ t, Returns (N.mod.mjp x none (some A) .weight) st (some t) ∧ IsMat t B r p fun b => Z b * N.JW st (X b) := by
  have := (h.g.mjpW h.w hB hx hr hA).2
  rw [← h.same.mjp, GNet.cmdl_JW] at this
  exact this.returnsOptW.1 hp

theorem GNet.COk.jTI (h : N.COk st) (hB : 0 < B) (hx : IsBatch x B s n X) {A : Tensor ℝ} {Z} (hA : IsMat A B k k Z) :
    ∃ t, Returns (N.mod.jTmjp x none (some A) .input false false false) st (.tensor t) ∧
      IsMat t B n n fun b => (N.J st (X b))ᵀ * Z b * N.J st (X b) := by
  have := (h.g.jTI false false h.w hB hx hA).2
  beta_reduce at this
  rw [← h.same.jTmjp, GNet.cmdl_J] at this
  exact this.returnsTensor

theorem GNet.COk.jTW (h : N.COk st) (hB : 0 < B) (hx : IsBatch x B s n X) (hp : 0 < p) {A : Tensor ℝ} {Z} (hA : IsMat A B k k Z) :
    ∃ v, Returns (N.mod.jTmjp x none (some A) .weight false false false) st v ∧
      N.Blocks v B fun b => (N.JW st (X b))ᵀ * Z b * N.JW st (X b) := by
  have := (h.g.jTWf false h.w hB hx hA).2
  beta_reduce at this
  rw [← h.same.jTmjp, GNet.cmdl_JW] at this
  obtain ⟨v, hv, hP⟩ := this.returnsOptV.1 hp
  exact ⟨v, hv, (N.cmdl_blocks v B _).1 hP⟩

variable (hf : N.FwdI)
include hf

theorem GNet.COk.jvpI (h : N.COk st) (hB : 0 < B) (hx : IsBatch x B s n X) {u : Tensor ℝ} {U} (hu : IsVec u B n U) :
    ∃ t, Returns (N.mod.jvp x none u .input) st (some t) ∧ IsVec t B k fun b => N.J st (X b) *ᵥ U b := by
  have := (h.g.jvpI (N.cmdl_fwdI.2 hf) h.w hB hx hu) none (by simp)
  rw [← h.same.jvp, GNet.cmdl_J] at this
  exact this.returnsSome

theorem GNet.COk.jvpW (hw : N.FwdW) (h : N.COk st) (hB : 0 < B) (hx : IsBatch x B s n X) (hp : 0 < p) {u : Tensor ℝ} {U} (hu : IsVec u B p U) :
    ∃ t, Returns (N.mod.jvp x none u .weight) st (some t) ∧ IsVec t B k fun b => N.JW st (X b) *ᵥ U b := by
  have := (h.g.jvpW (N.cmdl_fwdI.2 hf) (N.cmdl_fwdW.2 hw) h.w hB hx hu) none (by simp)
  rw [← h.same.jvp, GNet.cmdl_JW] at this
  exact this.returnsOptW.1 hp

theorem GNet.COk.jmpI (h : N.COk st) (hB : 0 < B) (hx : IsBatch x B s n X) {r : Nat} {A : Tensor ℝ} {Z} (hA : IsMat A B n r Z) :
    ∃ t, Returns (N.mod.jmp x none (some A) .input) st (some t) ∧ IsMat t B k r fun b => N.J st (X b) * Z b := by
  have := (h.g.jmpI (N.cmdl_fwdI.2 hf) h.w hB hx hA) none (by simp)
  rw [← h.same.jmp, GNet.cmdl_J] at this
  exact this.returnsSome

theorem GNet.COk.jmpW (hw : N.FwdW) (h : N.COk st) (hB : 0 < B) (hx : IsBatch x B s n X) (hp : 0 < p) {r : Nat} {A : Tensor ℝ} {Z}
    (hA : IsMat A B p r Z) :
    ∃ t, Returns (N.mod.jmp x none (some A) .weight) st (some t) ∧ IsMat t B k r fun b => N.JW st (X b) * Z b := by
  have := (h.g.jmpW (N.cmdl_fwdI.2 hf) (N.cmdl_fwdW.2 hw) h.w hB hx hA) none (by simp)
  rw [← h.same.jmp, GNet.cmdl_JW] at this
  exact this.returnsOptW.1 hp

theorem GNet.COk.jmjI (h : N.COk st) (hB : 0 < B) (hx : IsBatch x B s n X) {A : Tensor ℝ} {Z} (fd td : Bool)
    (hA : MetricArg fd A B n Z) :
    ∃ t, Returns (N.mod.jmjTp x none (.tensor A) .input fd td false) st (some t) ∧
      MetricOut td t B k fun b => N.J st (X b) * Z b * (N.J st (X b))ᵀ := by
  have := (h.g.jmjI (N.cmdl_fwdI.2 hf) fd td h.w hB hx hA).2
  rw [← h.same.jmjTp, GNet.cmdl_J] at this
  exact this.returnsSome

theorem GNet.COk.jmjW (hp : 0 < p) (h : N.COk st) (hB : 0 < B) (hx : IsBatch x B s n X) {A : Tensor ℝ} {Z} (fd td : Bool)
    (hA : MetricArg fd A B p Z) :
    ∃ t, Returns (N.mod.jmjTp x none (.tensor A) .weight fd td false) st (some t) ∧
      MetricOut td t B k fun b => N.JW st (X b) * N.sem.mask (Z b) * (N.JW st (X b))ᵀ := by
  have := (h.g.jmjW (GNet.FwdI.pushW hf) hp fd td h.w hB hx (h.g.arg_of_metric hA)).2
  rw [← h.same.jmjTp, GNet.cmdl_JW, GNet.cmdl_S] at this
  exact this.returnsSome

omit hf

theorem GNet.COk.len (h : N.COk st) : flatLen st N.paramIds = p := (N.w_flat st h.wired h.customs).1
theorem GNet.COk.wAt (h : N.COk st) (i : Fin p) : N.w st i = flatAt st N.paramIds i := (N.w_flat st h.wired h.customs).2 i

theorem GNet.COk.of_wiring (h : N.COk st) {st' : Store ℝ} (hw : Wiring st st') : N.COk st' :=
  ⟨h.nodup, (N.cmdl_wired st').1 (h.g.wired_of hw h.w), h.customs⟩

theorem GNet.COk.getWeight (h : N.COk st) (hp : N.paramIds.Nodup) (h0 : 0 < p) :
    ∃ t, N.mod.getWeight st = (.ok t, st) ∧ IsVec1 t p (N.w st) := by
  have hne : N.mod.parameters ≠ [] := by
    rw [N.parameters hp]
    intro e
    have := h.len
    rw [e] at this
    simp only [flatLen] at this
    omega
  obtain ⟨t, ht, hs, hd⟩ := getWeight_run st hne
  rw [N.parameters hp, h.len] at hs hd
  exact ⟨t, ht, hs, fun i => by rw [hd i i.2, h.wAt]⟩

theorem GNet.COk.setWeight (h : N.COk st) (hp : N.paramIds.Nodup) {v : Tensor ℝ} (hv : p ≤ v.numel) :
    ∃ st', N.mod.setWeight v st = (.ok (), st') ∧ N.COk st' ∧ ∀ i : Fin p, N.w st' i = v.data i := by
  obtain ⟨st', hr, hS⟩ := setWeightLoop_ok v N.paramIds hp 0 st (by rw [h.len]; omega)
  have hok := h.of_wiring hS.wiring
  refine ⟨st', by rw [Mod.setWeight, N.parameters hp]; exact hr, hok, fun i => ?_⟩
  rw [hok.wAt, hS.val i (by rw [h.len]; exact i.2)]
  simp

theorem GNet.COk.weightMap_eq (h : N.COk st) (hp : N.paramIds.Nodup) (hB : 0 < B) (hx : IsBatch x B s n X) (b : Fin B) :
    weightMap (p := p) (k := k) N.mod st x b = fun w => N.sem.f w (X b) := by
  funext w i
  obtain ⟨st', hs, hok, hw⟩ := h.setWeight hp (v := ofVec w) (by simp [ofVec, Tensor.numel, size])
  obtain ⟨t, ht, hT⟩ := hok.forward hB hx
  have e : N.w st' = w := funext fun i => by rw [hw]; simp [ofVec]
  rw [e] at hT
  simp only [Returns] at ht
  simp only [weightMap, Prog.bind_run, hs, ht]
  exact hT.2 b i

end
end NNJ
