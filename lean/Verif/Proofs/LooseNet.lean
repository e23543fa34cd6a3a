import Verif.Proofs.Loose
import Verif.Proofs.Build

/-! Forward mode of networks without wiring. -/

namespace NNJ
open Tensor Matrix

mutual
theorem Net.shapes_of : {s s' : List Nat} → {n k p : Nat} → (N : Net s n s' k p) → {st st' : Store ℝ} → (∀ i, (st'.param i).shape = (st.param i).shape) →
    N.Shapes st → N.Shapes st'
  | _, _, _, _, _, .linear .., _, _, e, h => by simp only [Net.Shapes, e] at h ⊢; exact h
  | _, _, _, _, _, .act .., _, _, e, h => by simp only [Net.Shapes]
  | _, _, _, _, _, .flatten .., _, _, e, h => by simp only [Net.Shapes]
  | _, _, _, _, _, .reshape .., _, _, e, h => by simp only [Net.Shapes]
  | _, _, _, _, _, .l2norm .., _, _, e, h => by simp only [Net.Shapes]
  | _, _, _, _, _, .conv .., _, _, e, h => by simp only [Net.Shapes, e] at h ⊢; exact h
  | _, _, _, _, _, .upsample .., _, _, e, h => by simp only [Net.Shapes]
  | _, _, _, _, _, .maxpool .., _, _, e, h => by simp only [Net.Shapes]
  | _, _, _, _, _, .seq _ c, _, _, e, h => by simp only [Net.Shapes] at h ⊢; exact c.shapes_of e h
  | _, _, _, _, _, .skip _ _ c, _, _, e, h => by simp only [Net.Shapes] at h ⊢; exact c.shapes_of e h
theorem Chain.shapes_of : {s s' : List Nat} → {n k p l : Nat} → (c : Chain s n s' k p l) → {st st' : Store ℝ} →
    (∀ i, (st'.param i).shape = (st.param i).shape) → c.Shapes st → c.Shapes st'
  | _, _, _, _, _, _, .nil .., _, _, _, _ => by simp only [Chain.Shapes]
  | _, _, _, _, _, _, .snoc c m, _, _, e, h => by simp only [Chain.Shapes] at h ⊢; exact ⟨c.shapes_of e h.1, m.shapes_of e h.2⟩
end

mutual
theorem Net.w_moved : {s s' : List Nat} → {n k p : Nat} → (N : Net s n s' k p) → (st : Store ℝ) → (D : Nat → Nat → ℝ) → (ε : ℝ) →
    N.w (st.moved D ε) = fun i => N.w st i + ε * N.w (st.direction D) i
  | _, _, _, _, _, .linear _ _ b _ _ _ _, st, D, ε => by
    simp only [Net.w, linearW, Store.moved, Store.direction]
    funext i
    refine Fin.addCases (fun i => ?_) (fun i => ?_) i <;> simp only [Fin.append_left, Fin.append_right]
    cases b <;> simp
  | _, _, _, _, _, .act .., st, D, ε => by funext i; simp only [Net.w]; ring
  | _, _, _, _, _, .flatten .., st, D, ε => by funext i; simp only [Net.w]; ring
  | _, _, _, _, _, .reshape .., st, D, ε => by funext i; simp only [Net.w]; ring
  | _, _, _, _, _, .l2norm .., st, D, ε => by funext i; simp only [Net.w]; ring
  | _, _, _, _, _, .conv _ _ b _, st, D, ε => by
    simp only [Net.w, convW, Store.moved, Store.direction]
    funext i
    refine Fin.addCases (fun i => ?_) (fun i => ?_) i <;> simp only [Fin.append_left, Fin.append_right]
    cases b <;> simp
  | _, _, _, _, _, .upsample .., st, D, ε => by funext i; simp only [Net.w]; ring
  | _, _, _, _, _, .maxpool .., st, D, ε => by funext i; simp only [Net.w]; ring
  | _, _, _, _, _, .seq _ c, st, D, ε => by simp only [Net.w]; exact c.w_moved st D ε
  | _, _, _, _, _, .skip _ _ c, st, D, ε => by simp only [Net.w]; exact c.w_moved st D ε
theorem Chain.w_moved : {s s' : List Nat} → {n k p l : Nat} → (c : Chain s n s' k p l) → (st : Store ℝ) → (D : Nat → Nat → ℝ) → (ε : ℝ) →
    c.w (st.moved D ε) = fun i => c.w st i + ε * c.w (st.direction D) i
  | _, _, _, _, _, _, .nil .., st, D, ε => by funext i; simp only [Chain.w]; ring
  | _, _, _, _, _, _, .snoc c m, st, D, ε => by
    simp only [Chain.w, c.w_moved st D ε, m.w_moved st D ε]
    funext i
    refine Fin.addCases (fun i => ?_) (fun i => ?_) i <;> simp only [Fin.append_left, Fin.append_right]
end

section nets
variable {s s' : List Nat} {n k p : Nat} {N : Net s n s' k p} {st : Store ℝ} {B : Nat} {X : Fin B → Fin n → ℝ} {x : Tensor ℝ}

theorem Net.Loose.wired (h : N.Loose st) : N.lmdl.wired st := N.lmdl_wired st h.shapes h.hooks

theorem Net.Loose.still {st' : Store ℝ} (h : N.Loose st) (hs : Still st st') : N.Loose st' :=
  ⟨N.shapes_of (fun i => by rw [hs.param]) h.shapes, h.hooks.still hs⟩

theorem Net.Loose.moved (h : N.Loose st) (D : Nat → Nat → ℝ) (ε : ℝ) : N.Loose (st.moved D ε) :=
  ⟨N.shapes_of (st := st) (fun _ => rfl) h.shapes, h.hooks⟩

theorem Net.Loose.run {β : Type} (h : N.Loose st) {call : Prog ℝ β} {P : β → Prop} (hr : Run call st fun r s' => P r ∧ Still st s') :
    ∃ r, Returns call st r ∧ P r ∧ N.Loose (call st).2 := by
  obtain ⟨r, s', e, hP, hs⟩ := hr
  exact ⟨r, by rw [Returns, e], hP, by rw [e]; exact h.still hs⟩

theorem Net.lY (N : Net s n s' k p) : N.lmdl.Y st X = fun b => N.sem.f (N.w st) (X b) := by
  funext b; simp only [Mdl.Y, N.lmdl_eqs.2.1, N.lmdl_eqs.2.2.1]
theorem Net.lJ (N : Net s n s' k p) : N.lmdl.J st X = fun b => N.sem.J (N.w st) (X b) := by
  funext b; simp only [Mdl.J, N.lmdl_eqs.2.1, N.lmdl_eqs.2.2.1]
theorem Net.lJW (N : Net s n s' k p) : N.lmdl.JW st X = fun b => N.sem.JW (N.w st) (X b) := by
  funext b; simp only [Mdl.JW, N.lmdl_eqs.2.1, N.lmdl_eqs.2.2.1]

theorem Net.Loose.forward (h : N.Loose st) (hB : 0 < B) (hx : IsBatch x B s n X) :
    ∃ t, Returns (N.mod.forward x) st t ∧ IsBatch t B s' k (fun b => N.sem.f (N.w st) (X b)) ∧ N.Loose (N.mod.forward x st).2 := by
  have := N.lgood.forward h.wired hB hx
  rw [N.lmdl_eqs.1, N.lY] at this
  exact h.run this

theorem Net.Loose.jvpI (hf : N.FwdI) (h : N.Loose st) (hB : 0 < B) (hx : IsBatch x B s n X) {u : Tensor ℝ} {U} (hu : IsVec u B n U) :
    ∃ t, Returns (N.mod.jvp x none u .input) st (some t) ∧ IsVec t B k (fun b => N.sem.J (N.w st) (X b) *ᵥ U b) ∧
      N.Loose (N.mod.jvp x none u .input st).2 := by
  have := N.lgood.jvpI (N.lmdl_eqs.2.2.2.1.2 hf) h.wired hB hx hu none (by simp)
  rw [N.lmdl_eqs.1, N.lJ] at this
  obtain ⟨o, h1, h2, h3⟩ := h.run this
  cases o with
  | none => exact h2.elim
  | some t => exact ⟨t, h1, h2, h3⟩

theorem Net.Loose.jmpI (hf : N.FwdI) (h : N.Loose st) (hB : 0 < B) (hx : IsBatch x B s n X) {r : Nat} {u : Tensor ℝ} {U} (hu : IsMat u B n r U) :
    ∃ t, Returns (N.mod.jmp x none (some u) .input) st (some t) ∧ IsMat t B k r (fun b => N.sem.J (N.w st) (X b) * U b) ∧
      N.Loose (N.mod.jmp x none (some u) .input st).2 := by
  have := N.lgood.jmpI (N.lmdl_eqs.2.2.2.1.2 hf) h.wired hB hx hu none (by simp)
  rw [N.lmdl_eqs.1, N.lJ] at this
  obtain ⟨o, h1, h2, h3⟩ := h.run this
  cases o with
  | none => exact h2.elim
  | some t => exact ⟨t, h1, h2, h3⟩

theorem Net.Loose.jvpW (hf : N.FwdI) (hf' : N.FwdW) (hp : 0 < p) (h : N.Loose st) (hB : 0 < B) (hx : IsBatch x B s n X) {u : Tensor ℝ} {U}
    (hu : IsVec u B p U) :
    ∃ t, Returns (N.mod.jvp x none u .weight) st (some t) ∧ IsVec t B k (fun b => N.sem.JW (N.w st) (X b) *ᵥ U b) ∧
      N.Loose (N.mod.jvp x none u .weight st).2 := by
  have := N.lgood.jvpW (N.lmdl_eqs.2.2.2.1.2 hf) (N.lmdl_eqs.2.2.2.2.2 hf') h.wired hB hx hu none (by simp)
  rw [N.lmdl_eqs.1, N.lJW] at this
  obtain ⟨o, h1, h2, h3⟩ := h.run this
  simp only [OptW, Nat.ne_of_gt hp, if_false] at h2
  cases o with
  | none => exact h2.elim
  | some t => exact ⟨t, h1, h2, h3⟩

theorem Net.Loose.jmpW (hf : N.FwdI) (hf' : N.FwdW) (hp : 0 < p) (h : N.Loose st) (hB : 0 < B) (hx : IsBatch x B s n X) {r : Nat} {u : Tensor ℝ} {U}
    (hu : IsMat u B p r U) :
    ∃ t, Returns (N.mod.jmp x none (some u) .weight) st (some t) ∧ IsMat t B k r (fun b => N.sem.JW (N.w st) (X b) * U b) ∧
      N.Loose (N.mod.jmp x none (some u) .weight st).2 := by
  have := N.lgood.jmpW (N.lmdl_eqs.2.2.2.1.2 hf) (N.lmdl_eqs.2.2.2.2.2 hf') h.wired hB hx hu none (by simp)
  rw [N.lmdl_eqs.1, N.lJW] at this
  obtain ⟨o, h1, h2, h3⟩ := h.run this
  simp only [OptW, Nat.ne_of_gt hp, if_false] at h2
  cases o with
  | none => exact h2.elim
  | some t => exact ⟨t, h1, h2, h3⟩

theorem Net.Loose.forwardMap_eq (h : N.Loose st) : forwardMap N.mod st s = N.sem.f (N.w st) := by
  funext z i
  obtain ⟨t, ht, hT, -⟩ := h.forward Nat.one_pos (ofSample_isBatch z)
  simp only [Returns] at ht
  simp only [forwardMap, ht]
  simpa using hT.2 0 i

/-- moving the parameters moves the output along `JW` -/
theorem Net.Loose.deriv_moved (h : N.Loose st) (D : Nat → Nat → ℝ) (z : Fin n → ℝ) (hs : N.sem.smooth (N.w st) z) :
    HasDerivAt (fun ε => forwardMap (k := k) N.mod (st.moved D ε) s z) (N.sem.JW (N.w st) z *ᵥ N.w (st.direction D)) 0 := by
  have e : (fun ε => forwardMap (k := k) N.mod (st.moved D ε) s z) = fun ε => N.sem.f (N.w st + ε • N.w (st.direction D)) z := by
    funext ε
    rw [(h.moved D ε).forwardMap_eq, N.w_moved]
    rfl
  rw [e]
  have hl : HasDerivAt (fun ε : ℝ => N.w st + ε • N.w (st.direction D)) (N.w (st.direction D)) 0 := by
    simpa using ((hasDerivAt_id (0 : ℝ)).smul_const (N.w (st.direction D))).const_add (N.w st)
  have hd := (N.diff _ _ hs).weight
  have hd' : HasFDerivAt (fun w => N.sem.f w z) (linMap (N.sem.JW (N.w st) z)) (N.w st + (0 : ℝ) • N.w (st.direction D)) := by simpa using hd
  exact HasFDerivAt.comp_hasDerivAt (0 : ℝ) hd' hl

end nets

theorem Sequential.mem_register (id : Nat) : ∀ (ms : List (Mod ℝ)) (h : Nat → List Nat) (i q : Nat), q ∈ Sequential.register id ms h i → q ∈ h i ∨ q = id
  | [], _, _, _, hq => Or.inl hq
  | m :: ms, h, i, q, hq => by
    rcases Sequential.mem_register id ms _ i q hq with h' | h'
    · by_cases e : i = m.id
      · simp only [e, if_true, List.mem_append, List.mem_singleton] at h' ⊢; exact h'
      · simp only [e, if_false] at h'; exact Or.inl h'
    · exact Or.inr h'

theorem init_hooksOk {st : Store ℝ} (h : HooksOk st) (id : Nat) (ms : List (Mod ℝ)) : HooksOk (Sequential.init id ms true st).2 := by
  intro i q hq
  show Option.isSome (if q = id then _ else _) = true
  split_ifs with e
  · rfl
  · rcases Sequential.mem_register id ms st.hooks i q hq with h' | h'
    · exact h i q h'
    · exact (e h').elim

theorem init_run {st : Store ℝ} (h : HooksOk st) (id : Nat) (ms : List (Mod ℝ)) :
    Run (Sequential.init id ms true) st fun m st' => m = Sequential.mod id true ms ∧ st'.param = st.param ∧ HooksOk st' :=
  ⟨_, _, rfl, rfl, rfl, init_hooksOk h id ms⟩

mutual
theorem Net.build_loose : {s s' : List Nat} → {n k p : Nat} → (N : Net s n s' k p) → {st : Store ℝ} → HooksOk st →
    Run N.build st fun m st' => m = N.mod ∧ st'.param = st.param ∧ HooksOk st'
  | _, _, _, _, _, .linear .., _, h => by rw [Net.build, Net.mod]; exact Run.pure ⟨rfl, rfl, h⟩
  | _, _, _, _, _, .act .., _, h => by rw [Net.build, Net.mod]; exact Run.pure ⟨rfl, rfl, h⟩
  | _, _, _, _, _, .flatten .., _, h => by rw [Net.build, Net.mod]; exact Run.pure ⟨rfl, rfl, h⟩
  | _, _, _, _, _, .reshape .., _, h => by rw [Net.build, Net.mod]; exact Run.pure ⟨rfl, rfl, h⟩
  | _, _, _, _, _, .l2norm .., _, h => by rw [Net.build, Net.mod]; exact Run.pure ⟨rfl, rfl, h⟩
  | _, _, _, _, _, .conv .., _, h => by rw [Net.build, Net.mod, Conv2d.init_eq]; exact Run.pure ⟨rfl, rfl, h⟩
  | _, _, _, _, _, .upsample .., _, h => by rw [Net.build, Net.mod]; exact Run.pure ⟨rfl, rfl, h⟩
  | _, _, _, _, _, .maxpool .., _, h => by rw [Net.build, Net.mod]; exact Run.pure ⟨rfl, rfl, h⟩
  | _, _, _, _, _, .seq id c, st, h => by
    rw [Net.build, Net.mod]
    refine (c.build_loose h).bind fun ms st1 ⟨hm, hp, h1⟩ => ?_
    subst hm
    exact (init_run h1 id c.mods).mono fun m st2 ⟨hm, hp2, h2⟩ => ⟨hm, hp2.trans hp, h2⟩
  | _, _, _, _, _, .skip id fid ch, st, h => by
    rw [Net.build, Net.mod]
    refine (ch.build_loose h).bind fun ms st1 ⟨hm, hp, h1⟩ => ?_
    subst hm
    rw [SkipConnection.init]
    refine (init_run h1 fid ch.mods).bind fun m st2 ⟨hm, hp2, h2⟩ => ?_
    subst hm
    exact Run.pure ⟨rfl, hp2.trans hp, h2⟩
theorem Chain.build_loose : {s s' : List Nat} → {n k p l : Nat} → (c : Chain s n s' k p l) → {st : Store ℝ} → HooksOk st →
    Run c.build st fun ms st' => ms = c.mods ∧ st'.param = st.param ∧ HooksOk st'
  | _, _, _, _, _, _, .nil .., st, h => by rw [Chain.build, Chain.mods]; exact Run.pure ⟨rfl, rfl, h⟩
  | _, _, _, _, _, _, .snoc c m, st, h => by
    rw [Chain.build, Chain.mods]
    refine (c.build_loose h).bind fun ms st1 ⟨hm, hp, h1⟩ => ?_
    refine (m.build_loose h1).bind fun m' st2 ⟨hm', hp2, h2⟩ => ?_
    subst hm; subst hm'
    exact Run.pure ⟨rfl, hp2.trans hp, h2⟩
end

end NNJ
