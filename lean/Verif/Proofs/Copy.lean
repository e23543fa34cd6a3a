import Verif.Spec.Copy
import Verif.Proofs.Append
import Verif.Proofs.Tame
import Verif.Proofs.Build
import Verif.Proofs.Slice
import Verif.Proofs.Grow

/-! A copied network against the original: running the methods of both side by side. -/

namespace NNJ
open Tensor

/-- same result from related states, and related states afterwards -/
def EqP (R : Store ℝ → Store ℝ → Prop) {β : Type} (p p' : Prog ℝ β) : Prop := ∀ s t, R s t → (p s).1 = (p' t).1 ∧ R (p s).2 (p' t).2

namespace EqP
variable {β γ : Type} {R : Store ℝ → Store ℝ → Prop}
theorem pure (b : β) : EqP R (Pure.pure b : Prog ℝ β) (Pure.pure b) := fun _ _ h => ⟨rfl, h⟩
theorem pure' (b : β) : EqP R (Prog.pure b : Prog ℝ β) (Prog.pure b) := fun _ _ h => ⟨rfl, h⟩
theorem throw (e : Err) : EqP R (Prog.throw e : Prog ℝ β) (Prog.throw e) := fun _ _ h => ⟨rfl, h⟩
theorem lift (r : Res β) : EqP R (liftM r : Prog ℝ β) (liftM r) := fun _ _ h => ⟨rfl, h⟩
theorem assert (c : Bool) : EqP R (Prog.assert c : Prog ℝ Unit) (Prog.assert c) := by
  cases c
  · exact throw _
  · exact pure' _
theorem need (v : Option (Tensor ℝ)) : EqP R (Prog.need v : Prog ℝ (Tensor ℝ)) (Prog.need v) := by
  cases v
  · exact throw _
  · exact pure' _
theorem same {p p' : Prog ℝ β} (h : ∀ s, (p s).2 = s) (h' : ∀ s, (p' s).2 = s) (e : ∀ s t, R s t → (p s).1 = (p' t).1) : EqP R p p' := fun s t ht =>
  ⟨e s t ht, by rw [h s, h' t]; exact ht⟩
theorem bind {p p' : Prog ℝ β} {f f' : β → Prog ℝ γ} (hp : EqP R p p') (hf : ∀ b, EqP R (f b) (f' b)) : EqP R (p >>= f) (p' >>= f') := by
  intro s t ht
  obtain ⟨h1, h2⟩ := hp s t ht
  rw [Prog.bind_run, Prog.bind_run]
  rcases hps : p s with ⟨r, s'⟩
  rcases hpt : p' t with ⟨r', t'⟩
  rw [hps, hpt] at h1 h2
  replace h1 : r = r' := h1
  subst h1
  cases r with
  | ok b => exact hf b s' t' h2
  | error e => exact ⟨rfl, h2⟩
end EqP

/-- solves `EqP` goals of do-blocks -/
macro "eqps" : tactic => `(tactic| repeat' (first
  | assumption
  | apply EqP.pure | apply EqP.pure' | apply EqP.throw | apply EqP.lift | apply EqP.assert | apply EqP.need
  | (refine EqP.bind ?_ fun _ => ?_)
  | split))

section
variable {φ ψ : Nat → Nat} {A H P : Nat → Prop} {q : Nat} {L : Option (List (Tensor ℝ))}

/-- What running forward through the layers needs: the parameters and pooling indices agree, the hooks on both sides can append; on the
right none of them appends to `q`, whose feature maps are `L`. -/
structure SimF (φ ψ : Nat → Nat) (A H P : Nat → Prop) (q : Nat) (L : Option (List (Tensor ℝ))) (s t : Store ℝ) : Prop where
  param : ∀ i, P i → t.param (ψ i) = s.param i
  pidx : ∀ i, A i → t.pidx (φ i) = s.pidx i
  left : ∀ i, H i → ∀ j ∈ s.hooks i, (s.fmaps j).isSome
  right : ∀ i, H i → ∀ j ∈ t.hooks (φ i), (t.fmaps j).isSome ∧ j ≠ q
  frame : t.fmaps q = L

/-- What running backward through the layers needs: parameters, pooling indices and feature maps agree. -/
structure SimB (φ ψ : Nat → Nat) (A P : Nat → Prop) (s t : Store ℝ) : Prop where
  param : ∀ i, P i → t.param (ψ i) = s.param i
  pidx : ∀ i, A i → t.pidx (φ i) = s.pidx i
  fmaps : ∀ i, A i → t.fmaps (φ i) = s.fmaps i

/-- `m'` copies `m`: the methods that run forward; and `__call__`, if the hooks on them are covered (`C`) -/
structure FwdSim (R : Store ℝ → Store ℝ → Prop) (C : Prop) (m m' : Mod ℝ) : Prop where
  np : m'.nParams = m.nParams
  forward : ∀ x, EqP R (m.forward x) (m'.forward x)
  call : C → ∀ x, EqP R (m.call x) (m'.call x)
  jvp : ∀ x v u w, EqP R (m.jvp x v u w) (m'.jvp x v u w)
  jmp : ∀ x v u w, EqP R (m.jmp x v (some u) w) (m'.jmp x v (some u) w)

/-- `m'` copies `m`: the methods that run backward, with `val` given -/
structure BwdSim (R : Store ℝ → Store ℝ → Prop) (m m' : Mod ℝ) : Prop where
  np : m'.nParams = m.nParams
  jacobian : ∀ x v w, EqP R (m.jacobian x (some v) w) (m'.jacobian x (some v) w)
  vjp : ∀ x v u w, EqP R (m.vjp x (some v) u w) (m'.vjp x (some v) u w)
  mjp : ∀ x v u w, EqP R (m.mjp x (some v) u w) (m'.mjp x (some v) u w)
  jTmjp : ∀ x v u w a b c, EqP R (m.jTmjp x (some v) u w a b c) (m'.jTmjp x (some v) u w a b c)

/-! ### hooks -/

/-- what hooks change -/
structure Grown (q : Nat) (s s' : Store ℝ) : Prop where
  param : s'.param = s.param
  pidx : s'.pidx = s.pidx
  hooks : s'.hooks = s.hooks
  some : ∀ j, (s.fmaps j).isSome → (s'.fmaps j).isSome
  other : s'.fmaps q = s.fmaps q

theorem runHooks_grown (v : Tensor ℝ) (q : Nat) (is : List Nat) (s : Store ℝ) (h : ∀ j ∈ is, (s.fmaps j).isSome ∧ j ≠ q) :
    ∃ s', Mod.runHooks v is s = (.ok (), s') ∧ Grown q s s' := by
  induction is generalizing s with
  | nil => exact ⟨s, rfl, rfl, rfl, rfl, fun _ h => h, rfl⟩
  | cons i is ih =>
    obtain ⟨l, hl⟩ := Option.isSome_iff_exists.1 (h i (by simp)).1
    have hk : ∀ j, (s.fmaps j).isSome → ((if j = i then some (l ++ [v]) else s.fmaps j : Option (List (Tensor ℝ)))).isSome := fun j hj => by
      by_cases e : j = i
      · simp [e]
      · simpa [e] using hj
    obtain ⟨s', h', g⟩ := ih { s with fmaps := fun j => if j = i then some (l ++ [v]) else s.fmaps j } fun j hj =>
      ⟨hk j (h j (by simp [hj])).1, (h j (by simp [hj])).2⟩
    refine ⟨s', ?_, g.param, g.pidx, g.hooks, fun j hj => g.some j (hk j hj), ?_⟩
    · simp only [Mod.runHooks]
      rw [Prog.bind_ok (b := ()) (s' := { s with fmaps := fun j => if j = i then some (l ++ [v]) else s.fmaps j }) (by simp only [Mod.runHook, hl])]
      exact h'
    · rw [g.other]
      exact if_neg (h i (by simp)).2.symm

theorem runHooks_grown' (v : Tensor ℝ) (is : List Nat) (s : Store ℝ) (h : ∀ j ∈ is, (s.fmaps j).isSome) :
    ∃ s', Mod.runHooks v is s = (.ok (), s') ∧ s'.param = s.param ∧ s'.pidx = s.pidx ∧ s'.hooks = s.hooks ∧
      ∀ j, (s.fmaps j).isSome → (s'.fmaps j).isSome := by
  obtain ⟨q, hq⟩ := Infinite.exists_notMem_finset is.toFinset
  obtain ⟨s', h', g⟩ := runHooks_grown v q is s fun j hj => ⟨h j hj, by rintro rfl; exact hq (by simpa using hj)⟩
  exact ⟨s', h', g.param, g.pidx, g.hooks, g.some⟩

theorem eqp_call {m m' : Mod ℝ} (hf : ∀ x, EqP (SimF φ ψ A H P q L) (m.forward x) (m'.forward x)) (hid : m'.id = φ m.id) (hm : H m.id)
    (x : Tensor ℝ) : EqP (SimF φ ψ A H P q L) (m.call x) (m'.call x) := by
  refine EqP.bind (hf x) fun v => ?_
  intro s t h
  obtain ⟨s', hs', h1, h2, h3, h4⟩ := runHooks_grown' v (s.hooks m.id) s (h.left _ hm)
  obtain ⟨t', ht', g⟩ := runHooks_grown v q (t.hooks (φ m.id)) t (h.right _ hm)
  have e1 : ((do let hs ← Prog.read fun s => s.hooks m.id; Mod.runHooks v hs; pure v : Prog ℝ (Tensor ℝ)) s) = (.ok v, s') := by
    show (Mod.runHooks v (s.hooks m.id) >>= fun _ => pure v) s = _
    rw [Prog.bind_ok hs']; rfl
  have e2 : ((do let hs ← Prog.read fun s => s.hooks m'.id; Mod.runHooks v hs; pure v : Prog ℝ (Tensor ℝ)) t) = (.ok v, t') := by
    rw [hid]
    show (Mod.runHooks v (t.hooks (φ m.id)) >>= fun _ => pure v) t = _
    rw [Prog.bind_ok ht']; rfl
  rw [e1, e2]
  refine ⟨rfl, fun i hi => ?_, fun i hi => ?_, fun i hi j hj => ?_, fun i hi j hj => ?_, ?_⟩
  · rw [g.param, h1]; exact h.param i hi
  · rw [g.pidx, h2]; exact h.pidx i hi
  · rw [h3] at hj; exact h4 j (h.left i hi j hj)
  · rw [g.hooks] at hj; exact ⟨g.some j (h.right i hi j hj).1, (h.right i hi j hj).2⟩
  · rw [g.other]; exact h.frame

/-! ### layers without state -/

theorem fwdSim_pure {l l' : Store ℝ → PureLayer ℝ} {id np : Nat} {ps ps' : List Nat} (hL : ∀ s t, SimF φ ψ A H P q L s t → l s = l' t) :
    FwdSim (SimF φ ψ A H P q L) (H id) (PureLayer.toMod l id np ps) (PureLayer.toMod l' (φ id) np ps') := by
  have hf : ∀ x, EqP (SimF φ ψ A H P q L) ((PureLayer.toMod l id np ps).forward x) ((PureLayer.toMod l' (φ id) np ps').forward x) :=
    fun x s t h => ⟨by simp only [PureLayer.toMod, hL s t h], h⟩
  exact ⟨rfl, hf, fun hH x => eqp_call hf rfl hH x, fun x v u w s t h => ⟨by simp only [PureLayer.toMod, hL s t h], h⟩,
    fun x v u w s t h => ⟨by simp only [PureLayer.toMod, hL s t h], h⟩⟩

theorem bwdSim_pure {l l' : Store ℝ → PureLayer ℝ} {id id' np : Nat} {ps ps' : List Nat} (hL : ∀ s t, SimB φ ψ A P s t → l s = l' t) :
    BwdSim (SimB φ ψ A P) (PureLayer.toMod l id np ps) (PureLayer.toMod l' id' np ps') := by
  refine ⟨rfl, ?_, ?_, ?_, ?_⟩ <;> intros <;> (intro s t h; exact ⟨by simp only [PureLayer.toMod, hL s t h], h⟩)

/-! ### MaxPool2d -/

section
open MaxPool2d
variable (hinj : ∀ i j, A i → A j → φ i = φ j → i = j)
include hinj

theorem eqp_poolForward {id : Nat} (hA : A id) (a : Torch.PoolArgs) (x : Tensor ℝ) :
    EqP (SimF φ ψ A H P q L) (MaxPool2d.forward id a x) (MaxPool2d.forward (φ id) a x) := by
  refine EqP.bind (EqP.lift _) fun r => EqP.bind ?_ fun _ => EqP.pure _
  refine fun s t h => ⟨rfl, h.param, fun i hi => ?_, h.left, h.right, h.frame⟩
  by_cases e : i = id
  · subst e; simp [Prog.modify]
  · have : φ i ≠ φ id := fun h => e (hinj _ _ hi hA h)
    simpa [Prog.modify, e, this] using h.pidx i hi

omit hinj in
theorem eqp_poolIdx {R : Store ℝ → Store ℝ → Prop} (hR : ∀ s t, R s t → ∀ i, A i → t.pidx (φ i) = s.pidx i) {id : Nat} (hA : A id) :
    EqP R (getIdx id : Prog ℝ (Tensor Nat)) (getIdx (φ id)) := by
  refine EqP.same (fun s => ?_) (fun s => ?_) fun s t h => ?_
  · simp only [getIdx]; split <;> rfl
  · simp only [getIdx]; split <;> rfl
  · simp only [getIdx, hR s t h id hA]; split <;> rfl

theorem fwdSim_pool (a : Torch.PoolArgs) {id : Nat} (hA : A id) :
    FwdSim (SimF φ ψ A H P q L) (H id) (MaxPool2d.mod a id) (MaxPool2d.mod a (φ id)) where
  np := rfl
  forward x := eqp_poolForward hinj hA a x
  call hH := eqp_call (eqp_poolForward hinj hA a) rfl hH
  jvp x v u w := by
    show EqP _ (MaxPool2d.jvp x v u w) (MaxPool2d.jvp x v u w)
    cases w with
    | input => exact EqP.throw _
    | weight => exact EqP.pure _
    | other => exact EqP.pure _
  jmp x v u w := by
    show EqP _ (jmpSome id a x v u w) (jmpSome (φ id) a x v u w)
    cases w with
    | input =>
      refine EqP.bind ?_ fun _ => EqP.bind (eqp_poolIdx (fun s t h => h.pidx) hA) fun _ => EqP.bind (EqP.lift _) fun _ => EqP.pure _
      cases v with
      | none => exact eqp_poolForward hinj hA a x
      | some v => exact EqP.pure _
    | weight => exact EqP.pure _
    | other => exact EqP.pure _

omit hinj in
theorem bwdSim_pool (a : Torch.PoolArgs) {id : Nat} (hA : A id) : BwdSim (SimB φ ψ A P) (MaxPool2d.mod a id) (MaxPool2d.mod a (φ id)) := by
  have hidx : EqP (SimB φ ψ A P) (getIdx id : Prog ℝ (Tensor Nat)) (getIdx (φ id)) := eqp_poolIdx (fun s t h => h.pidx) hA
  have hjmp : ∀ x v m, EqP (SimB φ ψ A P) (jmpSome id a x (some v) m .input) (jmpSome (φ id) a x (some v) m .input) := fun x v m =>
    EqP.bind (EqP.pure _) fun _ => EqP.bind hidx fun _ => EqP.bind (EqP.lift _) fun _ => EqP.pure _
  have hjac : ∀ x v w, EqP (SimB φ ψ A P) (MaxPool2d.jacobian id a x (some v) w) (MaxPool2d.jacobian (φ id) a x (some v) w) := by
    intro x v w
    cases w with
    | input =>
      exact EqP.bind (EqP.pure _) fun _ => EqP.bind (EqP.lift _) fun _ => EqP.bind (EqP.lift _) fun _ => EqP.bind (EqP.assert _) fun _ =>
        EqP.bind (EqP.lift _) fun _ => hjmp _ _ _
    | weight => exact EqP.pure _
    | other => exact EqP.pure _
  refine ⟨rfl, hjac, fun x v u w => ?_, fun x v u w => ?_, fun x v u w fd td db => ?_⟩
  · show EqP _ (MaxPool2d.vjp id a x (some v) u w) (MaxPool2d.vjp (φ id) a x (some v) u w)
    cases w with
    | input => exact EqP.bind (EqP.pure _) fun _ => EqP.bind hidx fun _ => EqP.bind (EqP.lift _) fun _ => EqP.pure _
    | weight => exact EqP.pure _
    | other => exact EqP.pure _
  · show EqP _ (MaxPool2d.mjp id a x (some v) u w) (MaxPool2d.mjp (φ id) a x (some v) u w)
    cases u with
    | none => exact hjac _ _ _
    | some m =>
      cases w with
      | input => exact EqP.bind (EqP.pure _) fun _ => EqP.bind hidx fun _ => EqP.bind (EqP.lift _) fun _ => EqP.pure _
      | weight => exact EqP.pure _
      | other => exact EqP.pure _
  · show EqP _ (MaxPool2d.jTmjp id a x (some v) u w fd td db) (MaxPool2d.jTmjp (φ id) a x (some v) u w fd td db)
    refine EqP.bind (EqP.pure _) fun _ => EqP.bind (EqP.lift _) fun _ => EqP.bind (EqP.lift _) fun _ => EqP.bind (EqP.assert _) fun _ =>
      EqP.bind (EqP.lift _) fun _ => ?_
    have h : ∀ f : Tensor Nat → Prog ℝ (PyVal ℝ), (∀ i, EqP (SimB φ ψ A P) (f i) (f i)) → EqP (SimB φ ψ A P) (getIdx id >>= f) (getIdx (φ id) >>= f) :=
      fun f hf => EqP.bind hidx hf
    cases w with
    | input =>
      split
      dsimp only
      split
      · exact EqP.bind (EqP.assert _) fun _ => h _ fun _ => EqP.bind (EqP.lift _) fun _ => EqP.pure _
      · exact EqP.bind (EqP.assert _) fun _ => h _ fun _ => EqP.bind (EqP.lift _) fun _ => EqP.pure _
    | weight => eqps
    | other => eqps

end

/-! ### Sequential -/

section
variable {R : Store ℝ → Store ℝ → Prop} {ms ms' : List (Mod ℝ)}

theorem eqp_run (h : List.Forall₂ (FwdSim R True) ms ms') (x : Tensor ℝ) : EqP R (Sequential.run ms x) (Sequential.run ms' x) := by
  induction h generalizing x with
  | nil => exact EqP.pure _
  | cons hm _ ih => exact EqP.bind (hm.call trivial x) fun _ => ih _

theorem eqp_jvpInput (h : List.Forall₂ (FwdSim R True) ms ms') (x v : Tensor ℝ) : EqP R (Sequential.jvpInput ms x v) (Sequential.jvpInput ms' x v) := by
  induction h generalizing x v with
  | nil => exact EqP.pure _
  | cons hm _ ih =>
    simp only [Sequential.jvpInput]
    exact EqP.bind (hm.call trivial x) fun _ => EqP.bind (hm.jvp _ _ _ _) fun _ => EqP.bind (EqP.need _) fun _ => ih _ _

theorem eqp_jmpInput (h : List.Forall₂ (FwdSim R True) ms ms') (x v : Tensor ℝ) : EqP R (Sequential.jmpInput ms x v) (Sequential.jmpInput ms' x v) := by
  induction h generalizing x v with
  | nil => exact EqP.pure _
  | cons hm _ ih =>
    simp only [Sequential.jmpInput]
    exact EqP.bind (hm.call trivial x) fun _ => EqP.bind (hm.jmp _ _ _ _) fun _ => EqP.bind (EqP.need _) fun _ => ih _ _

theorem eqp_through (acc : Option (Tensor ℝ)) {f f' : Tensor ℝ → Prog ℝ (Option (Tensor ℝ))} (h : ∀ a, EqP R (f a) (f' a)) :
    EqP R (Sequential.through acc f) (Sequential.through acc f') := by
  cases acc with
  | none => exact EqP.pure _
  | some a => exact h a

theorem eqp_jvpWeight (h : List.Forall₂ (FwdSim R True) ms ms') (u x : Tensor ℝ) (p : Nat) (acc : Option (Tensor ℝ)) :
    EqP R (Sequential.jvpWeight u ms x p acc) (Sequential.jvpWeight u ms' x p acc) := by
  induction h generalizing x p acc with
  | nil => exact EqP.pure _
  | cons hm _ ih =>
    simp only [Sequential.jvpWeight, hm.np]
    exact EqP.bind (hm.call trivial x) fun _ => EqP.bind (eqp_through _ fun _ => hm.jvp _ _ _ _) fun _ => EqP.bind (EqP.lift _) fun _ =>
      EqP.bind (hm.jvp _ _ _ _) fun _ => EqP.bind (EqP.lift _) fun _ => ih _ _ _

theorem eqp_jmpWeight (h : List.Forall₂ (FwdSim R True) ms ms') (u x : Tensor ℝ) (p : Nat) (acc : Option (Tensor ℝ)) :
    EqP R (Sequential.jmpWeight u ms x p acc) (Sequential.jmpWeight u ms' x p acc) := by
  induction h generalizing x p acc with
  | nil => exact EqP.pure _
  | cons hm _ ih =>
    simp only [Sequential.jmpWeight, hm.np]
    exact EqP.bind (hm.call trivial x) fun _ => EqP.bind (eqp_through _ fun _ => hm.jmp _ _ _ _) fun _ => EqP.bind (EqP.lift _) fun _ =>
      EqP.bind (hm.jmp _ _ _ _) fun _ => EqP.bind (EqP.lift _) fun _ => ih _ _ _

theorem fwdSim_nParams (h : List.Forall₂ (FwdSim R True) ms ms') : Sequential.nParams ms' = Sequential.nParams ms := by
  induction h with
  | nil => rfl
  | cons hm _ ih =>
    simp only [Sequential.nParams, List.map_cons, List.sum_cons] at ih ⊢
    rw [hm.np, ih]

theorem bwdSim_nParams (h : List.Forall₂ (BwdSim R) ms ms') : Sequential.nParams ms' = Sequential.nParams ms := by
  induction h with
  | nil => rfl
  | cons hm _ ih =>
    simp only [Sequential.nParams, List.map_cons, List.sum_cons] at ih ⊢
    rw [hm.np, ih]

theorem eqp_child {β : Type} (h : List.Forall₂ (BwdSim R) ms ms') (k : Nat) {f f' : Mod ℝ → Prog ℝ β} (hf : ∀ m m', BwdSim R m m' → EqP R (f m) (f' m')) :
    EqP R (Sequential.child ms k >>= f) (Sequential.child ms' k >>= f') := by
  intro s t ht
  rw [Prog.bind_run, Prog.bind_run]
  simp only [Sequential.child]
  cases hk : ms[k]? with
  | none =>
    have : ms'[k]? = none := by rw [List.getElem?_eq_none_iff] at hk ⊢; rw [← h.length_eq]; exact hk
    rw [this]
    exact ⟨rfl, ht⟩
  | some m =>
    obtain ⟨hlt, rfl⟩ := List.getElem?_eq_some_iff.1 hk
    have hlt' : k < ms'.length := by rw [← h.length_eq]; exact hlt
    rw [List.getElem?_eq_getElem hlt']
    exact hf _ _ (h.get hlt hlt') s t ht

end

section
variable {ms ms' : List (Mod ℝ)}

theorem fwdSim_seq {R : Store ℝ → Store ℝ → Prop} (h : List.Forall₂ (FwdSim R True) ms ms') {id id' : Nat} {C : Prop}
    (hf : ∀ x, EqP R (Sequential.forward id true ms x) (Sequential.forward id' true ms' x))
    (hc : C → ∀ x, EqP R ((Sequential.mod id true ms).call x) ((Sequential.mod id' true ms').call x)) :
    FwdSim R C (Sequential.mod id true ms) (Sequential.mod id' true ms') where
  np := fwdSim_nParams h
  forward := hf
  call := hc
  jvp x v u w := by
    simp only [Sequential.mod, Sequential.jvp, fwdSim_nParams h]
    refine EqP.bind (EqP.assert _) fun _ => ?_
    cases w with
    | input => exact EqP.bind (eqp_jvpInput h _ _) fun _ => EqP.pure _
    | weight => exact EqP.bind (eqp_jvpWeight h _ _ _ _) fun _ => EqP.bind (EqP.assert _) fun _ => EqP.pure _
    | other => exact EqP.pure _
  jmp x v u w := by
    simp only [Sequential.mod, Sequential.jmp, fwdSim_nParams h]
    refine EqP.bind (EqP.assert _) fun _ => ?_
    cases w with
    | input => exact EqP.bind (eqp_jmpInput h _ _) fun _ => EqP.pure _
    | weight => exact EqP.bind (eqp_jmpWeight h _ _ _ _) fun _ => EqP.bind (EqP.assert _) fun _ => EqP.pure _
    | other => exact EqP.pure _

theorem eqp_seqForward (h : List.Forall₂ (FwdSim (SimF φ ψ A H P q L) True) ms ms') {id : Nat} (hq : φ id ≠ q) (x : Tensor ℝ) :
    EqP (SimF φ ψ A H P q L) (Sequential.forward id true ms x) (Sequential.forward (φ id) true ms' x) := by
  simp only [Sequential.forward, if_true]
  refine EqP.bind ?_ fun _ => eqp_run h x
  refine fun s t g => ⟨rfl, g.param, g.pidx, fun i hi j hj => ?_, fun i hi j hj => ⟨?_, (g.right i hi j hj).2⟩, ?_⟩
  · have := g.left i hi j hj
    by_cases e : j = id
    · simp [Prog.modify, e]
    · simpa [Prog.modify, e] using this
  · have := (g.right i hi j hj).1
    by_cases e : j = φ id
    · simp [Prog.modify, e]
    · simpa [Prog.modify, e] using this
  · simpa [Prog.modify, hq.symm] using g.frame

theorem eqp_fmap {id : Nat} (hA : A id) (k : Nat) : EqP (SimB φ ψ A P) (Sequential.fmap id k : Prog ℝ (Tensor ℝ)) (Sequential.fmap (φ id) k) := by
  refine EqP.same (fun s => ?_) (fun s => ?_) fun s t h => ?_
  · simp only [Sequential.fmap]; split
    · rfl
    · split <;> rfl
  · simp only [Sequential.fmap]; split
    · rfl
    · split <;> rfl
  · simp only [Sequential.fmap, h.fmaps id hA]; split
    · rfl
    · split <;> rfl

section
variable (h : List.Forall₂ (BwdSim (SimB φ ψ A P)) ms ms') {id : Nat} (hA : A id)
include h hA

theorem eqp_vjpInput (k : Nat) (v : Tensor ℝ) : EqP (SimB φ ψ A P) (Sequential.vjpInput id ms k v) (Sequential.vjpInput (φ id) ms' k v) := by
  induction k generalizing v with
  | zero => exact EqP.pure _
  | succ k ih =>
    simp only [Sequential.vjpInput]
    exact eqp_child h k fun m m' hm => EqP.bind (eqp_fmap hA _) fun _ => EqP.bind (eqp_fmap hA _) fun _ => EqP.bind (hm.vjp _ _ _ _) fun _ =>
      EqP.bind (EqP.need _) fun _ => ih _

theorem eqp_vjpWeight (k : Nat) (v : Tensor ℝ) (vs : List (Tensor ℝ)) :
    EqP (SimB φ ψ A P) (Sequential.vjpWeight id ms k v vs) (Sequential.vjpWeight (φ id) ms' k v vs) := by
  induction k generalizing v vs with
  | zero => exact EqP.pure _
  | succ k ih =>
    simp only [Sequential.vjpWeight]
    refine eqp_child h k fun m m' hm => EqP.bind (eqp_fmap hA _) fun _ => EqP.bind (eqp_fmap hA _) fun _ => EqP.bind (hm.vjp _ _ _ _) fun _ => ?_
    split
    · exact EqP.pure _
    · exact EqP.bind (hm.vjp _ _ _ _) fun _ => EqP.bind (EqP.need _) fun _ => ih _ _

theorem eqp_mjpInput (k : Nat) (v : Tensor ℝ) : EqP (SimB φ ψ A P) (Sequential.mjpInput id ms k v) (Sequential.mjpInput (φ id) ms' k v) := by
  induction k generalizing v with
  | zero => exact EqP.pure _
  | succ k ih =>
    simp only [Sequential.mjpInput]
    exact eqp_child h k fun m m' hm => EqP.bind (eqp_fmap hA _) fun _ => EqP.bind (eqp_fmap hA _) fun _ => EqP.bind (hm.mjp _ _ _ _) fun _ =>
      EqP.bind (EqP.need _) fun _ => ih _

theorem eqp_mjpWeight (k : Nat) (v : Tensor ℝ) (vs : List (Tensor ℝ)) :
    EqP (SimB φ ψ A P) (Sequential.mjpWeight id ms k v vs) (Sequential.mjpWeight (φ id) ms' k v vs) := by
  induction k generalizing v vs with
  | zero => exact EqP.pure _
  | succ k ih =>
    simp only [Sequential.mjpWeight]
    refine eqp_child h k fun m m' hm => EqP.bind (eqp_fmap hA _) fun _ => EqP.bind (eqp_fmap hA _) fun _ => EqP.bind (hm.mjp _ _ _ _) fun _ => ?_
    split
    · exact EqP.pure _
    · exact EqP.bind (hm.mjp _ _ _ _) fun _ => EqP.bind (EqP.need _) fun _ => ih _ _

theorem eqp_jTmjpInput (n : Nat) (a b c : Bool) (k : Nat) (v : Option (Tensor ℝ)) :
    EqP (SimB φ ψ A P) (Sequential.jTmjpInput id n ms a b c k v) (Sequential.jTmjpInput (φ id) n ms' a b c k v) := by
  induction k generalizing v with
  | zero => exact EqP.pure _
  | succ k ih =>
    simp only [Sequential.jTmjpInput]
    exact eqp_child h k fun m m' hm => EqP.bind (eqp_fmap hA _) fun _ => EqP.bind (eqp_fmap hA _) fun _ => EqP.bind (hm.jTmjp _ _ _ _ _ _ _) fun _ =>
      EqP.bind (EqP.lift _) fun _ => ih _

theorem eqp_jTmjpWeight (n : Nat) (a b c : Bool) (k : Nat) (v : Option (Tensor ℝ)) (vs : List (PyVal ℝ)) :
    EqP (SimB φ ψ A P) (Sequential.jTmjpWeight id n ms a b c k v vs) (Sequential.jTmjpWeight (φ id) n ms' a b c k v vs) := by
  induction k generalizing v vs with
  | zero => exact EqP.pure _
  | succ k ih =>
    simp only [Sequential.jTmjpWeight]
    refine eqp_child h k fun m m' hm => EqP.bind (eqp_fmap hA _) fun _ => EqP.bind (eqp_fmap hA _) fun _ => EqP.bind (hm.jTmjp _ _ _ _ _ _ _) fun _ => ?_
    split
    · exact EqP.pure _
    · exact EqP.bind (hm.jTmjp _ _ _ _ _ _ _) fun _ => EqP.bind (EqP.lift _) fun _ => ih _ _

theorem eqp_seqMjp (x v : Tensor ℝ) (M : Option (Tensor ℝ)) (w : Wrt) :
    EqP (SimB φ ψ A P) (Sequential.mjp id true ms x (some v) M w) (Sequential.mjp (φ id) true ms' x (some v) M w) := by
  have h1 := eqp_mjpInput h hA
  have h2 := eqp_mjpWeight h hA
  simp only [Sequential.mjp, ← h.length_eq]
  refine EqP.bind (EqP.assert _) fun _ => EqP.bind (EqP.pure _) fun _ => EqP.bind (EqP.lift _) fun _ => ?_
  split
  · exact EqP.bind (h1 _ _) fun _ => EqP.pure _
  · exact EqP.bind (h2 _ _ _) fun _ => EqP.lift _
  · exact EqP.pure _

theorem bwdSim_seq : BwdSim (SimB φ ψ A P) (Sequential.mod id true ms) (Sequential.mod (φ id) true ms') where
  np := bwdSim_nParams h
  jacobian x v w := eqp_seqMjp h hA x v none w
  vjp x v u w := by
    simp only [Sequential.mod, Sequential.vjp, ← h.length_eq]
    refine EqP.bind (EqP.assert _) fun _ => EqP.bind (EqP.pure _) fun _ => ?_
    cases w with
    | input => exact EqP.bind (eqp_vjpInput h hA _ _) fun _ => EqP.pure _
    | weight => exact EqP.bind (eqp_vjpWeight h hA _ _ _) fun _ => EqP.lift _
    | other => exact EqP.pure _
  mjp x v u w := eqp_seqMjp h hA x v u w
  jTmjp x v u w a b c := by
    simp only [Sequential.mod, Sequential.jTmjp, ← h.length_eq]
    refine EqP.bind (EqP.assert _) fun _ => EqP.bind (EqP.pure _) fun _ => EqP.bind (EqP.lift _) fun _ => ?_
    cases w with
    | input => exact EqP.bind (eqp_jTmjpInput h hA _ _ _ _ _ _) fun _ => EqP.pure _
    | weight =>
      refine EqP.bind (eqp_jTmjpWeight h hA _ _ _ _ _ _ _) fun _ => ?_
      split
      · exact EqP.pure _
      · split
        · exact EqP.bind (EqP.lift _) fun _ => EqP.bind (EqP.lift _) fun _ => EqP.pure _
        · exact EqP.pure _
    | other => exact EqP.bind (eqp_jTmjpInput h hA _ _ _ _ _ _) fun _ => EqP.pure _

end
end

/-! ### SkipConnection -/

section
variable {F F' : Mod ℝ}

theorem eqp_skipForward {R : Store ℝ → Store ℝ → Prop} (h : FwdSim R True F F') (x : Tensor ℝ) : EqP R (SkipConnection.forward F x) (SkipConnection.forward F' x) :=
  EqP.bind (h.call trivial x) fun _ => EqP.lift _

theorem fwdSim_skip (h : FwdSim (SimF φ ψ A H P q L) True F F') {id : Nat} :
    FwdSim (SimF φ ψ A H P q L) (H id) (SkipConnection.mod id F) (SkipConnection.mod (φ id) F') where
  np := h.np
  forward x := eqp_skipForward h x
  call hH := eqp_call (eqp_skipForward h) rfl hH
  jvp x v u w := by
    simp only [SkipConnection.mod, SkipConnection.jvp]
    refine EqP.bind (EqP.lift _) fun _ => EqP.bind (EqP.lift _) fun _ => EqP.bind (EqP.lift _) fun _ => EqP.bind (h.jvp _ _ _ _) fun _ => ?_
    cases w <;> eqps
  jmp x v u w := by
    simp only [SkipConnection.mod, SkipConnection.jmp]
    refine EqP.bind (EqP.lift _) fun _ => EqP.bind (EqP.lift _) fun _ => EqP.bind (EqP.lift _) fun _ => EqP.bind (h.jmp _ _ _ _) fun _ => ?_
    cases w <;> eqps

theorem bwdSim_skip {R : Store ℝ → Store ℝ → Prop} (h : BwdSim R F F') (id id' : Nat) : BwdSim R (SkipConnection.mod id F) (SkipConnection.mod id' F') := by
  have hjac : ∀ x v w, EqP R (SkipConnection.jacobian F F.nParams x (some v) w) (SkipConnection.jacobian F' F'.nParams x (some v) w) := by
    intro x v w
    simp only [SkipConnection.jacobian, h.np]
    refine EqP.bind (h.jacobian _ _ _) fun _ => EqP.bind (EqP.lift _) fun _ => EqP.bind (EqP.lift _) fun _ => EqP.bind (EqP.pure _) fun _ => ?_
    cases w <;> eqps
  have tail : ∀ {β : Type} {v : Tensor ℝ} {l : Nat} {f f' : Option (Tensor ℝ) → Prog ℝ β}, (∀ u, EqP R (f (some u)) (f' (some u))) →
      EqP R ((liftM (SkipConnection.tailVal (some v) l) : Prog ℝ _) >>= f) ((liftM (SkipConnection.tailVal (some v) l) : Prog ℝ _) >>= f') := by
    intro β v l f f' hf s t hst
    cases ht : SkipConnection.tailVal (some v) l with
    | error e => exact ⟨rfl, hst⟩
    | ok o =>
      have : ∃ u, o = some u := by
        simp only [SkipConnection.tailVal] at ht
        cases h1 : v.dim 1 with
        | error e => rw [h1] at ht; exact absurd ht (by rintro ⟨⟩)
        | ok n =>
          rw [h1] at ht
          cases h2 : v.slice 1 l n with
          | error e =>
            have ht' : (some <$> v.slice 1 l n : Res _) = .ok o := ht
            rw [h2] at ht'; exact absurd ht' (by rintro ⟨⟩)
          | ok u =>
            have ht' : (some <$> v.slice 1 l n : Res _) = .ok o := ht
            rw [h2] at ht'
            exact ⟨u, (Except.ok.inj ht').symm⟩
      obtain ⟨u, rfl⟩ := this
      exact hf u s t hst
  refine ⟨h.np, hjac, fun x v u w => ?_, fun x v u w => ?_, fun x v u w a b c => ?_⟩
  · simp only [SkipConnection.mod, SkipConnection.vjp]
    refine EqP.bind (EqP.lift _) fun _ => tail fun _ => EqP.bind (EqP.lift _) fun _ => EqP.bind (EqP.lift _) fun _ =>
      EqP.bind (h.vjp _ _ _ _) fun _ => ?_
    cases w <;> eqps
  · simp only [SkipConnection.mod, SkipConnection.mjp]
    cases u with
    | none => exact hjac x v w
    | some u =>
      refine EqP.bind (EqP.lift _) fun _ => tail fun _ => EqP.bind (EqP.lift _) fun _ => EqP.bind (EqP.lift _) fun _ =>
        EqP.bind (h.mjp _ _ _ _) fun _ => ?_
      cases w <;> eqps
  · simp only [SkipConnection.mod, SkipConnection.jTmjp]
    refine EqP.bind (EqP.assert _) fun _ => EqP.bind (EqP.pure _) fun _ => EqP.bind (EqP.lift _) fun _ =>
      tail fun _ => EqP.bind (EqP.lift _) fun _ => EqP.bind (EqP.lift _) fun _ => EqP.bind (h.jTmjp _ _ _ _ _ _ _) fun _ => ?_
    have h1 : ∀ x v u w, EqP R (F.mjp x (some v) u w) (F'.mjp x (some v) u w) := h.mjp
    cases w with
    | input =>
      refine EqP.bind (EqP.lift _) fun _ => ?_
      split
      · eqps
      · eqps
      · refine EqP.bind (EqP.lift _) fun _ => EqP.bind (EqP.lift _) fun _ => EqP.bind (h1 _ _ _ _) fun _ => EqP.bind (EqP.need _) fun _ =>
          EqP.bind (EqP.lift _) fun _ => EqP.bind (EqP.lift _) fun _ => EqP.bind (h1 _ _ _ _) fun _ => by eqps
    | weight => eqps
    | other => eqps

end

/-! ### networks -/

theorem FwdSim.mono {R : Store ℝ → Store ℝ → Prop} {C C' : Prop} {m m' : Mod ℝ} (h : FwdSim R C m m') (hC : C' → C) : FwdSim R C' m m' :=
  ⟨h.np, h.forward, fun c => h.call (hC c), h.jvp, h.jmp⟩

theorem Net.rename_id : {s s' : List Nat} → {n k p : Nat} → (N : Net s n s' k p) → (N.rename φ ψ).mod.id = φ N.mod.id
  | _, _, _, _, _, .linear _ _ none _ _ _ _ => by simp only [Net.rename, Net.mod]; rfl
  | _, _, _, _, _, .linear _ _ (some _) _ _ _ _ => by simp only [Net.rename, Net.mod]; rfl
  | _, _, _, _, _, .act _ _ _ _ _ _ => by simp only [Net.rename, Net.mod]; rfl
  | _, _, _, _, _, .flatten _ _ _ _ _ => by simp only [Net.rename, Net.mod]; rfl
  | _, _, _, _, _, .reshape _ _ _ _ _ _ _ _ _ => by simp only [Net.rename, Net.mod]; rfl
  | _, _, _, _, _, .l2norm _ _ _ _ _ _ _ => by simp only [Net.rename, Net.mod]; rfl
  | _, _, _, _, _, .conv _ _ none _ => by simp only [Net.rename, Net.mod]; rfl
  | _, _, _, _, _, .conv _ _ (some _) _ => by simp only [Net.rename, Net.mod]; rfl
  | _, _, _, _, _, .upsample _ _ _ _ _ _ _ _ _ => by simp only [Net.rename, Net.mod]; rfl
  | _, _, _, _, _, .maxpool _ _ => by simp only [Net.rename, Net.mod]; rfl
  | _, _, _, _, _, .seq _ _ => by simp only [Net.rename, Net.mod]; rfl
  | _, _, _, _, _, .skip _ _ _ => by simp only [Net.rename, Net.mod]; rfl

mutual
theorem Net.rename_ids : {s s' : List Nat} → {n k p : Nat} → (N : Net s n s' k p) → (N.rename φ ψ).ids = N.ids.map φ
  | _, _, _, _, _, .linear _ _ none _ _ _ _ => by simp [Net.rename, Net.ids]
  | _, _, _, _, _, .linear _ _ (some _) _ _ _ _ => by simp [Net.rename, Net.ids]
  | _, _, _, _, _, .act _ _ _ _ _ _ => by simp [Net.rename, Net.ids]
  | _, _, _, _, _, .flatten _ _ _ _ _ => by simp [Net.rename, Net.ids]
  | _, _, _, _, _, .reshape _ _ _ _ _ _ _ _ _ => by simp [Net.rename, Net.ids]
  | _, _, _, _, _, .l2norm _ _ _ _ _ _ _ => by simp [Net.rename, Net.ids]
  | _, _, _, _, _, .conv _ _ none _ => by simp [Net.rename, Net.ids]
  | _, _, _, _, _, .conv _ _ (some _) _ => by simp [Net.rename, Net.ids]
  | _, _, _, _, _, .upsample _ _ _ _ _ _ _ _ _ => by simp [Net.rename, Net.ids]
  | _, _, _, _, _, .maxpool _ _ => by simp [Net.rename, Net.ids]
  | _, _, _, _, _, .seq _ c => by simp [Net.rename, Net.ids, c.rename_ids]
  | _, _, _, _, _, .skip _ _ ch => by simp [Net.rename, Net.ids, ch.rename_ids]
theorem Chain.rename_ids : {s s' : List Nat} → {n k p l : Nat} → (c : Chain s n s' k p l) → (c.rename φ ψ).ids = c.ids.map φ
  | _, _, _, _, _, _, .nil _ _ _ _ => by simp [Chain.rename, Chain.ids]
  | _, _, _, _, _, _, .snoc c m => by simp [Chain.rename, Chain.ids, c.rename_ids, m.rename_ids]
end

mutual
/-- Running forward, the copy does what the original does.  Hooks are looked at below the network (`hH`), and on the network itself by `__call__`. -/
theorem Net.fwdSim (hinj : ∀ i j, A i → A j → φ i = φ j → i = j) : {s s' : List Nat} → {n k p : Nat} → (N : Net s n s' k p) →
    (∀ i ∈ N.ids, A i) → (∀ i ∈ N.ids, i ≠ N.mod.id → H i) → (∀ i ∈ N.mod.params, P i) → N.ids.Nodup → (∀ i ∈ N.ids, φ i ≠ q) →
    FwdSim (SimF φ ψ A H P q L) (H N.mod.id) N.mod (N.rename φ ψ).mod
  | _, _, _, _, _, .linear id wId none i o _ _, _, _, hP, _, _ => by
    simp only [Net.rename, Net.mod]
    exact fwdSim_pure fun s t h => by
      rw [h.param wId (hP _ (by simp [Net.mod, Linear.mod, PureLayer.toMod]))]; rfl
  | _, _, _, _, _, .linear id wId (some b) i o _ _, _, _, hP, _, _ => by
    simp only [Net.rename, Net.mod]
    exact fwdSim_pure fun s t h => by
      rw [h.param wId (hP _ (by simp [Net.mod, Linear.mod, PureLayer.toMod])), Option.map_some, Option.map_some,
        h.param b (hP _ (by simp [Net.mod, Linear.mod, PureLayer.toMod]))]
  | _, _, _, _, _, .act _ _ _ _ _ _, _, _, _, _, _ => by simp only [Net.rename, Net.mod]; exact fwdSim_pure fun _ _ _ => rfl
  | _, _, _, _, _, .flatten _ _ _ _ _, _, _, _, _, _ => by simp only [Net.rename, Net.mod]; exact fwdSim_pure fun _ _ _ => rfl
  | _, _, _, _, _, .reshape _ _ _ _ _ _ _ _ _, _, _, _, _, _ => by simp only [Net.rename, Net.mod]; exact fwdSim_pure fun _ _ _ => rfl
  | _, _, _, _, _, .l2norm _ _ _ _ _ _ _, _, _, _, _, _ => by simp only [Net.rename, Net.mod]; exact fwdSim_pure fun _ _ _ => rfl
  | _, _, _, _, _, .conv _ wId none g, _, _, hP, _, _ => by
    simp only [Net.rename, Net.mod]
    exact fwdSim_pure fun s t h => by
      rw [h.param wId (hP _ (by simp [Net.mod, Conv2d.mod, PureLayer.toMod, ConvDims.cfg]))]
      simp [ConvDims.cfg]
  | _, _, _, _, _, .conv _ wId (some b) g, _, _, hP, _, _ => by
    simp only [Net.rename, Net.mod]
    exact fwdSim_pure fun s t h => by
      rw [h.param wId (hP _ (by simp [Net.mod, Conv2d.mod, PureLayer.toMod, ConvDims.cfg]))]
      simp [ConvDims.cfg, h.param b (hP _ (by simp [Net.mod, Conv2d.mod, PureLayer.toMod, ConvDims.cfg]))]
  | _, _, _, _, _, .upsample _ _ _ _ _ _ _ _ _, _, _, _, _, _ => by simp only [Net.rename, Net.mod]; exact fwdSim_pure fun _ _ _ => rfl
  | _, _, _, _, _, .maxpool id _, hA, _, _, _, _ => by
    simp only [Net.rename, Net.mod]
    exact fwdSim_pool hinj _ (id := id) (hA id (by simp [Net.ids]))
  | _, _, _, _, _, .seq id c, hA, hH, hP, hnd, hq => by
    simp only [Net.ids, List.nodup_cons] at hnd
    have hc := c.fwdSim hinj (fun i hi => hA i (by simp [Net.ids, hi]))
      (fun i hi => hH i (by simp [Net.ids, hi]) (by simp only [Net.mod, Sequential.mod]; rintro rfl; exact hnd.1 hi))
      (fun m hm i hi => hP i (by simp only [Net.mod, Sequential.mod, List.mem_flatten, List.mem_map]; exact ⟨_, ⟨m, hm, rfl⟩, hi⟩)) hnd.2
      (fun i hi => hq i (by simp [Net.ids, hi]))
    simp only [Net.rename, Net.mod]
    have hf := eqp_seqForward hc (id := id) (hq id (by simp [Net.ids]))
    exact fwdSim_seq hc hf (fun h => eqp_call (m := Sequential.mod id true c.mods) hf rfl h)
  | _, _, _, _, _, .skip id fid ch, hA, hH, hP, hnd, hq => by
    simp only [Net.ids, List.nodup_cons, List.mem_cons, not_or] at hnd
    have hc := ch.fwdSim hinj (fun i hi => hA i (by simp [Net.ids, hi]))
      (fun i hi => hH i (by simp [Net.ids, hi]) (by simp only [Net.mod, SkipConnection.mod]; rintro rfl; exact hnd.1.2 hi))
      (fun m hm i hi => hP i (by simp only [Net.mod, SkipConnection.mod, Sequential.mod, List.mem_flatten, List.mem_map]; exact ⟨_, ⟨m, hm, rfl⟩, hi⟩)) hnd.2.2
      (fun i hi => hq i (by simp [Net.ids, hi]))
    simp only [Net.rename, Net.mod]
    have hf := eqp_seqForward hc (id := fid) (hq fid (by simp [Net.ids]))
    have hfid : H fid := hH fid (by simp [Net.ids]) (by simp only [Net.mod, SkipConnection.mod]; exact Ne.symm hnd.1.1)
    exact fwdSim_skip (fwdSim_seq hc hf (fun _ => eqp_call (m := Sequential.mod fid true ch.mods) hf rfl hfid))
theorem Chain.fwdSim (hinj : ∀ i j, A i → A j → φ i = φ j → i = j) : {s s' : List Nat} → {n k p l : Nat} → (c : Chain s n s' k p l) →
    (∀ i ∈ c.ids, A i) → (∀ i ∈ c.ids, H i) → (∀ m ∈ c.mods, ∀ i ∈ m.params, P i) → c.ids.Nodup → (∀ i ∈ c.ids, φ i ≠ q) →
    List.Forall₂ (FwdSim (SimF φ ψ A H P q L) True) c.mods (c.rename φ ψ).mods
  | _, _, _, _, _, _, .nil _ _ _ _, _, _, _, _, _ => by simp only [Chain.rename, Chain.mods]; exact .nil
  | _, _, _, _, _, _, .snoc c m, hA, hH, hP, hnd, hq => by
    simp only [Chain.ids, List.nodup_append] at hnd
    simp only [Chain.rename, Chain.mods]
    have hc := c.fwdSim hinj (fun i hi => hA i (by simp [Chain.ids, hi])) (fun i hi => hH i (by simp [Chain.ids, hi]))
      (fun m hm => hP m (by simp [Chain.mods, hm])) hnd.1 (fun i hi => hq i (by simp [Chain.ids, hi]))
    have hm := m.fwdSim hinj (fun i hi => hA i (by simp [Chain.ids, hi])) (fun i hi _ => hH i (by simp [Chain.ids, hi]))
      (hP m.mod (by simp [Chain.mods])) hnd.2.1 (fun i hi => hq i (by simp [Chain.ids, hi]))
    exact List.rel_append hc (.cons (hm.mono fun _ => hH _ (by simp [Chain.ids, m.id_mem])) .nil)
end

mutual
/-- Running backward with `val` given, the copy does what the original does. -/
theorem Net.bwdSim : {s s' : List Nat} → {n k p : Nat} → (N : Net s n s' k p) →
    (∀ i ∈ N.ids, A i) → (∀ i ∈ N.mod.params, P i) → BwdSim (SimB φ ψ A P) N.mod (N.rename φ ψ).mod
  | _, _, _, _, _, .linear id wId none i o _ _, _, hP => by
    simp only [Net.rename, Net.mod]
    exact bwdSim_pure fun s t h => by
      rw [h.param wId (hP _ (by simp [Net.mod, Linear.mod, PureLayer.toMod]))]; rfl
  | _, _, _, _, _, .linear id wId (some b) i o _ _, _, hP => by
    simp only [Net.rename, Net.mod]
    exact bwdSim_pure fun s t h => by
      rw [h.param wId (hP _ (by simp [Net.mod, Linear.mod, PureLayer.toMod])), Option.map_some, Option.map_some,
        h.param b (hP _ (by simp [Net.mod, Linear.mod, PureLayer.toMod]))]
  | _, _, _, _, _, .act _ _ _ _ _ _, _, _ => by simp only [Net.rename, Net.mod]; exact bwdSim_pure fun _ _ _ => rfl
  | _, _, _, _, _, .flatten _ _ _ _ _, _, _ => by simp only [Net.rename, Net.mod]; exact bwdSim_pure fun _ _ _ => rfl
  | _, _, _, _, _, .reshape _ _ _ _ _ _ _ _ _, _, _ => by simp only [Net.rename, Net.mod]; exact bwdSim_pure fun _ _ _ => rfl
  | _, _, _, _, _, .l2norm _ _ _ _ _ _ _, _, _ => by simp only [Net.rename, Net.mod]; exact bwdSim_pure fun _ _ _ => rfl
  | _, _, _, _, _, .conv _ wId none g, _, hP => by
    simp only [Net.rename, Net.mod]
    exact bwdSim_pure fun s t h => by
      rw [h.param wId (hP _ (by simp [Net.mod, Conv2d.mod, PureLayer.toMod, ConvDims.cfg]))]
      simp [ConvDims.cfg]
  | _, _, _, _, _, .conv _ wId (some b) g, _, hP => by
    simp only [Net.rename, Net.mod]
    exact bwdSim_pure fun s t h => by
      rw [h.param wId (hP _ (by simp [Net.mod, Conv2d.mod, PureLayer.toMod, ConvDims.cfg]))]
      simp [ConvDims.cfg, h.param b (hP _ (by simp [Net.mod, Conv2d.mod, PureLayer.toMod, ConvDims.cfg]))]
  | _, _, _, _, _, .upsample _ _ _ _ _ _ _ _ _, _, _ => by simp only [Net.rename, Net.mod]; exact bwdSim_pure fun _ _ _ => rfl
  | _, _, _, _, _, .maxpool id _, hA, _ => by
    simp only [Net.rename, Net.mod]
    exact bwdSim_pool _ (hA _ (by simp [Net.ids]))
  | _, _, _, _, _, .seq id c, hA, hP => by
    have hc := c.bwdSim (fun i hi => hA i (by simp [Net.ids, hi]))
      (fun m hm i hi => hP i (by simp only [Net.mod, Sequential.mod, List.mem_flatten, List.mem_map]; exact ⟨_, ⟨m, hm, rfl⟩, hi⟩))
    simp only [Net.rename, Net.mod]
    exact bwdSim_seq hc (hA id (by simp [Net.ids]))
  | _, _, _, _, _, .skip id fid ch, hA, hP => by
    have hc := ch.bwdSim (fun i hi => hA i (by simp [Net.ids, hi]))
      (fun m hm i hi => hP i (by simp only [Net.mod, SkipConnection.mod, Sequential.mod, List.mem_flatten, List.mem_map]; exact ⟨_, ⟨m, hm, rfl⟩, hi⟩))
    simp only [Net.rename, Net.mod]
    exact bwdSim_skip (bwdSim_seq hc (hA fid (by simp [Net.ids]))) _ _
theorem Chain.bwdSim : {s s' : List Nat} → {n k p l : Nat} → (c : Chain s n s' k p l) →
    (∀ i ∈ c.ids, A i) → (∀ m ∈ c.mods, ∀ i ∈ m.params, P i) → List.Forall₂ (BwdSim (SimB φ ψ A P)) c.mods (c.rename φ ψ).mods
  | _, _, _, _, _, _, .nil _ _ _ _, _, _ => by simp only [Chain.rename, Chain.mods]; exact .nil
  | _, _, _, _, _, _, .snoc c m, hA, hP => by
    simp only [Chain.rename, Chain.mods]
    have hc := c.bwdSim (fun i hi => hA i (by simp [Chain.ids, hi])) (fun m hm => hP m (by simp [Chain.mods, hm]))
    have hm := m.bwdSim (fun i hi => hA i (by simp [Chain.ids, hi])) (hP m.mod (by simp [Chain.mods]))
    exact List.rel_append hc (.cons hm .nil)
end

end

/-! ### the state after `deepcopy` -/

mutual
/-- the hooks inside a wired network can append -/
theorem Net.hooks_some : {s s' : List Nat} → {n k p : Nat} → (N : Net s n s' k p) → {st : Store ℝ} → N.Wired st →
    ∀ i ∈ N.ids, i ≠ N.mod.id → ∀ j ∈ st.hooks i, (st.fmaps j).isSome
  | _, _, _, _, _, .linear _ _ _ _ _ _ _, _, _ => by simp [Net.ids, Net.mod, Linear.mod, PureLayer.toMod]
  | _, _, _, _, _, .act _ _ _ _ _ _, _, _ => by simp [Net.ids, Net.mod, Activation.toMod, PureLayer.toMod]
  | _, _, _, _, _, .flatten _ _ _ _ _, _, _ => by simp [Net.ids, Net.mod, Resh.flatten, PureLayer.toMod]
  | _, _, _, _, _, .reshape _ _ _ _ _ _ _ _ _, _, _ => by simp [Net.ids, Net.mod, Resh.reshape, PureLayer.toMod]
  | _, _, _, _, _, .l2norm _ _ _ _ _ _ _, _, _ => by simp [Net.ids, Net.mod, L2Norm.mod, PureLayer.toMod]
  | _, _, _, _, _, .conv _ _ _ _, _, _ => by simp [Net.ids, Net.mod, Conv2d.mod, PureLayer.toMod]
  | _, _, _, _, _, .upsample _ _ _ _ _ _ _ _ _, _, _ => by simp [Net.ids, Net.mod, Upsample.mod, PureLayer.toMod]
  | _, _, _, _, _, .maxpool _ _, _, _ => by simp [Net.ids, Net.mod, MaxPool2d.mod]
  | _, _, _, _, _, .seq id c, st, h => by
    simp only [Net.Wired] at h
    simp only [Net.ids, Net.mod, Sequential.mod, List.mem_cons]
    exact fun i hi hne => c.hooks_some id h.1 h.2 i (hi.resolve_left hne)
  | _, _, _, _, _, .skip id fid ch, st, h => by
    simp only [Net.Wired] at h
    simp only [Net.ids, Net.mod, SkipConnection.mod, List.mem_cons]
    intro i hi hne
    rcases hi.resolve_left hne with rfl | hi
    · rw [h.2.1]; simp
    · exact ch.hooks_some fid h.1 h.2.2 i hi
theorem Chain.hooks_some : {s s' : List Nat} → {n k p l : Nat} → (c : Chain s n s' k p l) → (q : Nat) → {st : Store ℝ} → (st.fmaps q).isSome → c.Wired q st →
    ∀ i ∈ c.ids, ∀ j ∈ st.hooks i, (st.fmaps j).isSome
  | _, _, _, _, _, _, .nil _ _ _ _, _, _, _, _ => by simp [Chain.ids]
  | _, _, _, _, _, _, .snoc c m, q, st, hq, h => by
    simp only [Chain.Wired] at h
    simp only [Chain.ids, List.mem_append]
    intro i hi
    rcases hi with hi | hi
    · exact c.hooks_some q hq h.1 i hi
    · by_cases e : i = m.mod.id
      · rw [e, h.2.2]; simpa using hq
      · exact m.hooks_some h.2.1 i hi e
end

mutual
theorem Net.rename_params : {s s' : List Nat} → {n k p : Nat} → (N : Net s n s' k p) → (N.rename φ ψ).paramIds = N.paramIds.map ψ
  | _, _, _, _, _, .linear _ _ none _ _ _ _ => by simp [Net.rename, Net.paramIds]
  | _, _, _, _, _, .linear _ _ (some _) _ _ _ _ => by simp [Net.rename, Net.paramIds]
  | _, _, _, _, _, .act _ _ _ _ _ _ => by simp [Net.rename, Net.paramIds]
  | _, _, _, _, _, .flatten _ _ _ _ _ => by simp [Net.rename, Net.paramIds]
  | _, _, _, _, _, .reshape _ _ _ _ _ _ _ _ _ => by simp [Net.rename, Net.paramIds]
  | _, _, _, _, _, .l2norm _ _ _ _ _ _ _ => by simp [Net.rename, Net.paramIds]
  | _, _, _, _, _, .conv _ _ none _ => by simp [Net.rename, Net.paramIds]
  | _, _, _, _, _, .conv _ _ (some _) _ => by simp [Net.rename, Net.paramIds]
  | _, _, _, _, _, .upsample _ _ _ _ _ _ _ _ _ => by simp [Net.rename, Net.paramIds]
  | _, _, _, _, _, .maxpool _ _ => by simp [Net.rename, Net.paramIds]
  | _, _, _, _, _, .seq _ c => by simp [Net.rename, Net.paramIds, c.rename_params]
  | _, _, _, _, _, .skip _ _ ch => by simp [Net.rename, Net.paramIds, ch.rename_params]
theorem Chain.rename_params : {s s' : List Nat} → {n k p l : Nat} → (c : Chain s n s' k p l) → (c.rename φ ψ).paramIds = c.paramIds.map ψ
  | _, _, _, _, _, _, .nil _ _ _ _ => by simp [Chain.rename, Chain.paramIds]
  | _, _, _, _, _, _, .snoc c m => by simp [Chain.rename, Chain.paramIds, c.rename_params, m.rename_params]
end

section
variable {φ ψ : Nat → Nat} {s s' : List Nat} {n k p l : Nat} {N : Net s n s' k p} {st st' : Store ℝ}

theorem Net.Ok.hooks_owner (h : N.Ok st) (htop : st.hooks N.mod.id = []) : ∀ i ∈ N.ids, ∀ j ∈ st.hooks i, j ∈ N.ids ∧ (st.fmaps j).isSome := by
  intro i hi j hj
  by_cases e : i = N.mod.id
  · rw [e, htop] at hj; cases hj
  · exact ⟨N.hooks_inside h.wired i hi e j hj, N.hooks_some h.wired i hi e j hj⟩

theorem DeepCopied.old (hc : DeepCopied φ ψ N st st') {j : Nat} (hj : j ∈ N.ids) : st'.fmaps j = st.fmaps j ∧ st'.pidx j = st.pidx j ∧ st'.hooks j = st.hooks j :=
  hc.rest j fun i hi e => hc.new i hi (e ▸ hj)

theorem DeepCopied.simF (hc : DeepCopied φ ψ N st st') (h : N.Ok st) (htop : st.hooks N.mod.id = []) {q : Nat} (hq : q ∉ N.ids) :
    SimF φ ψ (· ∈ N.ids) (· ∈ N.ids) (· ∈ N.mod.params) q (st'.fmaps q) st st' where
  param := hc.param
  pidx := hc.pidx
  left i hi j hj := (h.hooks_owner htop i hi j hj).2
  right i hi j hj := by
    rw [hc.hooks i hi] at hj
    obtain ⟨h1, h2⟩ := h.hooks_owner htop i hi j hj
    exact ⟨by rw [(hc.old h1).1]; exact h2, fun e => hq (e ▸ h1)⟩
  frame := rfl

theorem DeepCopied.simB (hc : DeepCopied φ ψ N st st') : SimB φ ψ (· ∈ N.ids) (· ∈ N.mod.params) st st' := ⟨hc.param, hc.pidx, hc.fmaps⟩

theorem FwdSim.run {R : Store ℝ → Store ℝ → Prop} {C : Prop} {m m' : Mod ℝ} (h : FwdSim R C m m') (x : Tensor ℝ) (val : Option (Tensor ℝ)) (c : Call) (hc : c.Forwards) :
    EqP R (c.run m x val) (c.run m' x val) := by
  cases c with
  | forward => exact EqP.bind (h.forward _) fun _ => EqP.pure _
  | jvp v w => exact EqP.bind (h.jvp _ _ _ _) fun _ => EqP.pure _
  | jmp M w =>
    cases M with
    | none => exact hc.elim
    | some M => exact EqP.bind (h.jmp _ _ _ _) fun _ => EqP.pure _
  | _ => exact hc.elim

theorem BwdSim.run {R : Store ℝ → Store ℝ → Prop} {m m' : Mod ℝ} (h : BwdSim R m m') (x val : Tensor ℝ) (c : Call) (hc : c.Backwards) :
    EqP R (c.run m x (some val)) (c.run m' x (some val)) := by
  cases c with
  | jacobian w => exact EqP.bind (h.jacobian _ _ _) fun _ => EqP.pure _
  | vjp v w => exact EqP.bind (h.vjp _ _ _ _) fun _ => EqP.pure _
  | mjp M w => exact EqP.bind (h.mjp _ _ _ _) fun _ => EqP.pure _
  | jTmjp M w a b c => exact h.jTmjp _ _ _ _ _ _ _
  | _ => exact hc.elim

theorem DeepCopied.fwd (hc : DeepCopied φ ψ N st st') (h : N.Ok st) {q : Nat} {L : Option (List (Tensor ℝ))} (hq : ∀ i ∈ N.ids, φ i ≠ q) :
    FwdSim (SimF φ ψ (· ∈ N.ids) (· ∈ N.ids) (· ∈ N.mod.params) q L) (N.mod.id ∈ N.ids) N.mod (N.rename φ ψ).mod :=
  N.fwdSim (fun i j hi hj => hc.inj i hi j hj) (fun _ h => h) (fun _ h _ => h) (fun _ h => h) h.nodup hq

theorem exists_fresh (φ : Nat → Nat) (ids : List Nat) : ∃ q, q ∉ ids ∧ ∀ i ∈ ids, φ i ≠ q := by
  obtain ⟨q, hq⟩ := Infinite.exists_notMem_finset (ids ++ ids.map φ).toFinset
  simp only [List.mem_toFinset, List.mem_append, List.mem_map, not_or, not_exists, not_and] at hq
  exact ⟨q, hq.1, hq.2⟩

/-- the forward pass of a copied Sequential leaves `[x]` in the feature maps of the copy -/
theorem DeepCopied.forward {id : Nat} {c : Chain s n s' k p (l + 1)} (hc : DeepCopied φ ψ (Net.seq id c) st st') (h : (Net.seq id c).Ok st)
    (htop : st.hooks id = []) (x : Tensor ℝ) :
    (Sequential.forward (φ id) true (c.rename φ ψ).mods x st').1 = (Sequential.forward id true c.mods x st).1 ∧
    (Sequential.forward (φ id) true (c.rename φ ψ).mods x st').2.fmaps (φ id) = some [x] := by
  have htop' : st.hooks (Net.seq id c).mod.id = [] := by simpa only [Net.mod, Sequential.mod] using htop
  have hnd := h.nodup
  simp only [Net.ids, List.nodup_cons] at hnd
  have hid : id ∈ (Net.seq id c).ids := by simp [Net.ids]
  have hsub : ∀ i ∈ c.ids, i ∈ (Net.seq id c).ids := fun i hi => by simp [Net.ids, hi]
  have hpar : ∀ m ∈ c.mods, ∀ i ∈ m.params, i ∈ (Net.seq id c).mod.params := fun m hm i hi => by
    simp only [Net.mod, Sequential.mod, List.mem_flatten, List.mem_map]; exact ⟨_, ⟨m, hm, rfl⟩, hi⟩
  have key := eqp_run (c.fwdSim (φ := φ) (ψ := ψ) (A := (· ∈ (Net.seq id c).ids)) (H := (· ∈ (Net.seq id c).ids)) (P := (· ∈ (Net.seq id c).mod.params))
    (q := φ id) (L := some [x]) (fun i j hi hj => hc.inj i hi j hj) hsub hsub hpar hnd.2
    (fun i hi e => hnd.1 (hc.inj i (hsub i hi) id hid e ▸ hi))) x
  have hS := hc.simF h htop' (q := φ id) (hc.new id hid)
  obtain ⟨h1, h2⟩ := key { st with fmaps := fun j => if j = id then some [x] else st.fmaps j }
    { st' with fmaps := fun j => if j = φ id then some [x] else st'.fmaps j } (by
      refine ⟨hS.param, hS.pidx, fun i hi j hj => ?_, fun i hi j hj => ⟨?_, (hS.right i hi j hj).2⟩, if_pos rfl⟩
      · have := hS.left i hi j hj
        by_cases e : j = id
        · simp [e]
        · simpa [e] using this
      · have := (hS.right i hi j hj).1
        by_cases e : j = φ id
        · simp [e]
        · simpa [e] using this)
  exact ⟨h1.symm, h2.frame⟩

/-- one call of a copied layer appends one feature map to the original Sequential -/
theorem copied_call {m : Net s n s' k p} {id : Nat} {A P : Nat → Prop} {q0 : Nat} {L0 : Option (List (Tensor ℝ))} {t1 : Store ℝ} {s1 : Store ℝ}
    (hinj : ∀ i j, A i → A j → φ i = φ j → i = j) (hA : ∀ i ∈ m.ids, A i) (hP : ∀ i ∈ m.mod.params, P i) (hnd : m.ids.Nodup)
    (hq : ∀ i ∈ m.ids, φ i ≠ id) (hS : SimF φ ψ A A P q0 L0 s1 t1) (hin : ∀ i ∈ m.ids, i ≠ m.mod.id → id ∉ t1.hooks (φ i))
    (htop : t1.hooks (φ m.mod.id) = [id]) {L : List (Tensor ℝ)} (hL : t1.fmaps id = some L) (x y : Tensor ℝ)
    (hy : ((m.rename φ ψ).mod.call x t1).1 = .ok y) : ((m.rename φ ψ).mod.call x t1).2.fmaps id = some (L ++ [y]) := by
  have key := (m.fwdSim (φ := φ) (ψ := ψ) (A := A) (H := fun i => i ∈ m.ids ∧ i ≠ m.mod.id) (P := P) (q := id) (L := some L) hinj hA
    (fun i hi hne => ⟨hi, hne⟩) hP hnd hq).forward x s1 t1
    ⟨hS.param, hS.pidx, fun i hi => hS.left i (hA i hi.1), fun i hi j hj =>
      ⟨(hS.right i (hA i hi.1) j hj).1, by rintro rfl; exact hin i hi.1 hi.2 hj⟩, hL⟩
  have hfr := key.2.frame
  have hk := ((m.rename φ ψ).tame.forward x t1).hooks
  revert hy
  simp only [Mod.call]
  rw [Prog.bind_run]
  rcases hf : (m.rename φ ψ).mod.forward x t1 with ⟨r, t2⟩
  rw [hf] at hfr hk
  cases r with
  | error e => intro hy; cases hy
  | ok v =>
    have hh : t2.hooks (m.rename φ ψ).mod.id = [id] := by rw [hk, m.rename_id]; exact htop
    have hfr : t2.fmaps id = some L := hfr
    dsimp only
    have e : ((do let hs ← Prog.read fun s => s.hooks (m.rename φ ψ).mod.id; Mod.runHooks v hs; pure v : Prog ℝ (Tensor ℝ)) t2) =
        (.ok v, { t2 with fmaps := fun j => if j = id then some (L ++ [v]) else t2.fmaps j }) := by
      show (Mod.runHooks v (t2.hooks (m.rename φ ψ).mod.id) >>= fun _ => pure v) t2 = _
      rw [hh]
      simp only [Mod.runHooks]
      have h1 : Mod.runHook v id t2 = (.ok (), { t2 with fmaps := fun j => if j = id then some (L ++ [v]) else t2.fmaps j }) := by
        simp only [Mod.runHook, hfr]
      exact Prog.bind_ok ((Prog.bind_ok h1).trans rfl)
    rw [e]
    intro hy
    have hy : (Except.ok v : Res (Tensor ℝ)) = .ok y := hy
    cases hy
    exact if_pos rfl

theorem run_append (as bs : List (Mod ℝ)) (x : Tensor ℝ) (t : Store ℝ) :
    Sequential.run (as ++ bs) x t = (Sequential.run as x >>= fun y => Sequential.run bs y) t := by
  rw [seq_run_append]

/-- a forward pass through copied layers appends one feature map per layer to the original Sequential -/
theorem copied_run {id : Nat} {A P : Nat → Prop} {q0 : Nat} {L0 : Option (List (Tensor ℝ))} (hinj : ∀ i j, A i → A j → φ i = φ j → i = j) :
    {s s' : List Nat} → {n k p l : Nat} → (c : Chain s n s' k p l) → (∀ i ∈ c.ids, A i) → (∀ m ∈ c.mods, ∀ i ∈ m.params, P i) → c.ids.Nodup →
    (∀ i ∈ c.ids, φ i ≠ id ∧ φ i ≠ q0) → id ∉ c.ids → {st s1 t1 : Store ℝ} → c.Wired id st → (∀ i ∈ c.ids, t1.hooks (φ i) = st.hooks i) →
    SimF φ ψ A A P q0 L0 s1 t1 → {L : List (Tensor ℝ)} → t1.fmaps id = some L → (x y : Tensor ℝ) →
    (Sequential.run (c.rename φ ψ).mods x t1).1 = .ok y →
    ∃ E, E.length = l ∧ (Sequential.run (c.rename φ ψ).mods x t1).2.fmaps id = some (L ++ E)
  | _, _, _, _, _, _, .nil _ _ _ _, _, _, _, _, _, _, _, _, _, _, _, L, hL, x, y, _ => by
    simp only [Chain.rename, Chain.mods]
    exact ⟨[], rfl, by rw [List.append_nil]; exact hL⟩
  | _, _, _, _, _, _, .snoc c m, hA, hP, hnd, hq, hid, st, s1, t1, hw, hh, hS, L, hL, x, y, hy => by
    simp only [Chain.ids, List.nodup_append] at hnd
    simp only [Chain.ids, List.mem_append, not_or] at hid
    simp only [Chain.Wired] at hw
    have hAc : ∀ i ∈ c.ids, A i := fun i hi => hA i (by simp [Chain.ids, hi])
    have hAm : ∀ i ∈ m.ids, A i := fun i hi => hA i (by simp [Chain.ids, hi])
    have hPc : ∀ m ∈ c.mods, ∀ i ∈ m.params, P i := fun m hm => hP m (by simp [Chain.mods, hm])
    have hsim := eqp_run (c.fwdSim hinj hAc hAc hPc hnd.1 (fun i hi => (hq i (by simp [Chain.ids, hi])).2)) x s1 t1 hS
    have ih := copied_run hinj c hAc hPc hnd.1 (fun i hi => hq i (by simp [Chain.ids, hi])) hid.1 hw.1
      (fun i hi => hh i (by simp [Chain.ids, hi])) hS hL x
    have hkeep := (kp_run (fun m' hm' => (c.rename φ ψ).tame m' hm') x t1).hooks
    revert hy
    simp only [Chain.rename, Chain.mods]
    rw [seq_run_append, Prog.bind_run]
    rcases hf : Sequential.run (c.rename φ ψ).mods x t1 with ⟨r, t2⟩
    rw [hf] at hsim ih hkeep
    cases r with
    | error e => intro hy; cases hy
    | ok v =>
      obtain ⟨E, hE, hfm⟩ := ih v rfl
      have hkeep : t2.hooks = t1.hooks := hkeep
      dsimp only
      have hone : Sequential.run [(m.rename φ ψ).mod] v t2 = (m.rename φ ψ).mod.call v t2 := by
        simp only [Sequential.run]
        rw [Prog.bind_run]
        rcases (m.rename φ ψ).mod.call v t2 with ⟨r, t3⟩
        cases r <;> rfl
      rw [hone]
      intro hy
      refine ⟨E ++ [y], by simp [hE], ?_⟩
      rw [← List.append_assoc]
      refine copied_call hinj hAm (hP m.mod (by simp [Chain.mods])) hnd.2.1 (fun i hi => (hq i (by simp [Chain.ids, hi])).1) hsim.2 ?_ ?_ hfm v y hy
      · intro i hi hne hmem
        rw [hkeep, hh i (by simp [Chain.ids, hi])] at hmem
        exact hid.2 (m.hooks_inside hw.2.1 i hi hne id hmem)
      · rw [hkeep, hh _ (by simp [Chain.ids, m.id_mem])]; exact hw.2.2

/-- `set_weight` only writes to the parameters in its list -/
theorem setWeightLoop_other (v : Tensor ℝ) (is : List Nat) (p : Nat) (st : Store ℝ) {i : Nat} (hi : i ∉ is) :
    (setWeightLoop v is p st).2.param i = st.param i := by
  induction is generalizing p st with
  | nil => rfl
  | cons j is ih =>
    simp only [List.mem_cons, not_or] at hi
    simp only [setWeightLoop]
    split
    · rw [ih _ _ hi.2]
      exact if_neg hi.1
    · rfl

/-- no use of a network writes to a parameter of another one -/
theorem Net.event_param (M : Net s n s' k p) (e : Event) (st : Store ℝ) {i : Nat} (hi : i ∉ M.mod.params) : (e.after M.mod st).param i = st.param i := by
  cases e with
  | setWeight v => exact setWeightLoop_other v _ 0 st fun h => hi (mem_of_mem_dedupFirst h)
  | call x => rw [(Grow.event (Grow.net M fun _ h => h) st (.call x) trivial).param]
  | method x val c => rw [(Grow.event (Grow.net M fun _ h => h) st (.method x val c) trivial).param]

end

mutual
/-- wiredness depends only on the objects and parameters inside -/
theorem Net.wired_frame : {s s' : List Nat} → {n k p : Nat} → (N : Net s n s' k p) → {st st' : Store ℝ} →
    (∀ i ∈ N.paramIds, st'.param i = st.param i) → (∀ i ∈ N.ids, st'.fmaps i = st.fmaps i) →
    (∀ i ∈ N.ids, st'.hooks i = st.hooks i) → N.Wired st → N.Wired st'
  | _, _, _, _, _, .linear _ wId bId _ _ _ _, _, _, hp, _, _ => by
    simp only [Net.paramIds, List.mem_cons, Option.mem_toList] at hp
    simp only [Net.Wired]
    exact fun h => ⟨by rw [hp _ (Or.inl rfl)]; exact h.1, fun b hb => by rw [hp b (Or.inr hb)]; exact h.2 b hb⟩
  | _, _, _, _, _, .act _ _ _ _ _ _, _, _, _, _, _ => by simp [Net.Wired]
  | _, _, _, _, _, .flatten _ _ _ _ _, _, _, _, _, _ => by simp [Net.Wired]
  | _, _, _, _, _, .reshape _ _ _ _ _ _ _ _ _, _, _, _, _, _ => by simp [Net.Wired]
  | _, _, _, _, _, .l2norm _ _ _ _ _ _ _, _, _, _, _, _ => by simp [Net.Wired]
  | _, _, _, _, _, .conv _ wId bId _, _, _, hp, _, _ => by
    simp only [Net.paramIds, List.mem_cons, Option.mem_toList] at hp
    simp only [Net.Wired]
    exact fun h => ⟨by rw [hp _ (Or.inl rfl)]; exact h.1, fun b hb => by rw [hp b (Or.inr hb)]; exact h.2 b hb⟩
  | _, _, _, _, _, .upsample _ _ _ _ _ _ _ _ _, _, _, _, _, _ => by simp [Net.Wired]
  | _, _, _, _, _, .maxpool _ _, _, _, _, _, _ => by simp [Net.Wired]
  | _, _, _, _, _, .seq id c, st, st', hp, hfm, hh => by
    simp only [Net.Wired]
    simp only [Net.paramIds] at hp
    exact fun ⟨h1, h2⟩ => ⟨by rw [hfm id (by simp [Net.ids])]; exact h1, c.wired_frame id hp (fun i hi => hfm i (by simp [Net.ids, hi]))
      (fun i hi => hh i (by simp [Net.ids, hi])) h2⟩
  | _, _, _, _, _, .skip id fid ch, st, st', hp, hfm, hh => by
    simp only [Net.Wired]
    simp only [Net.paramIds] at hp
    exact fun ⟨h1, h2, h3⟩ => ⟨by rw [hfm fid (by simp [Net.ids])]; exact h1, by rw [hh fid (by simp [Net.ids])]; exact h2,
      ch.wired_frame fid hp (fun i hi => hfm i (by simp [Net.ids, hi])) (fun i hi => hh i (by simp [Net.ids, hi])) h3⟩
theorem Chain.wired_frame : {s s' : List Nat} → {n k p l : Nat} → (c : Chain s n s' k p l) → (q : Nat) → {st st' : Store ℝ} →
    (∀ i ∈ c.paramIds, st'.param i = st.param i) → (∀ i ∈ c.ids, st'.fmaps i = st.fmaps i) →
    (∀ i ∈ c.ids, st'.hooks i = st.hooks i) → c.Wired q st → c.Wired q st'
  | _, _, _, _, _, _, .nil _ _ _ _, _, _, _, _, _, _ => by simp [Chain.Wired]
  | _, _, _, _, _, _, .snoc c m, q, st, st', hp, hfm, hh => by
    simp only [Chain.Wired]
    simp only [Chain.paramIds, List.mem_append] at hp
    intro ⟨h1, h2, h3⟩
    refine ⟨c.wired_frame q (fun i hi => hp i (Or.inl hi)) (fun i hi => hfm i (by simp [Chain.ids, hi])) (fun i hi => hh i (by simp [Chain.ids, hi])) h1,
      m.wired_frame (fun i hi => hp i (Or.inr hi)) (fun i hi => hfm i (by simp [Chain.ids, hi])) (fun i hi => hh i (by simp [Chain.ids, hi])) h2, ?_⟩
    rw [hh m.mod.id (by simp [Chain.ids, m.id_mem])]; exact h3
end

section
variable {φ ψ : Nat → Nat} {s s' : List Nat} {n k p l : Nat} {N : Net s n s' k p} {st st' : Store ℝ}

theorem DeepCopied.oldParam (hc : DeepCopied φ ψ N st st') {j : Nat} (hj : j ∈ N.paramIds) : st'.param j = st.param j :=
  hc.restParam j fun i hi e => hc.newParam i hi (e ▸ by rw [N.mod_params]; exact hj)

theorem DeepCopied.ok (hc : DeepCopied φ ψ N st st') (h : N.Ok st) : N.Ok st' :=
  ⟨h.nodup, N.wired_frame (fun _ hi => hc.oldParam hi) (fun _ hi => (hc.old hi).1) (fun _ hi => (hc.old hi).2.2) h.wired⟩

/-- uses of the copy do not write to the parameters of the original -/
theorem DeepCopied.history_param (hc : DeepCopied φ ψ N st st') (es : List Event) (t : Store ℝ) {i : Nat} (hi : i ∈ N.paramIds) :
    (runHistory (es.map fun e => (⟨N.rename φ ψ⟩, e)) t).param i = t.param i := by
  induction es generalizing t with
  | nil => rfl
  | cons e es ih =>
    simp only [List.map_cons, runHistory]
    rw [ih]
    refine (N.rename φ ψ).event_param e t fun hm => ?_
    rw [(N.rename φ ψ).mod_params, N.rename_params] at hm
    obtain ⟨a, ha, rfl⟩ := List.mem_map.1 hm
    rw [← N.mod_params] at ha hi
    exact hc.newParam a ha hi
end

end NNJ
