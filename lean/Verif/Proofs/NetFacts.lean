import Verif.Proofs.NetGood
import Verif.Spec.Api

/-! The contract of a network, in the vocabulary of the property statements. -/

namespace NNJ
open Tensor Matrix

theorem Run.returns {β : Type} {call : Prog ℝ β} {st : Store ℝ} {Q : β → Store ℝ → Prop} (h : Run call st Q) :
    ∃ b, Returns call st b ∧ ∃ s', Q b s' := by
  obtain ⟨b, s', hb, hQ⟩ := h
  exact ⟨b, by simp [Returns, hb], s', hQ⟩

theorem Run.returnsSome {β : Type} {call : Prog ℝ (Option β)} {st : Store ℝ} {P : β → Prop} {R : Store ℝ → Prop}
    (h : Run call st fun r s' => IsSome P r ∧ R s') : ∃ t, Returns call st (some t) ∧ P t := by
  obtain ⟨b, hb, s', hP, _⟩ := h.returns
  cases b with
  | none => exact hP.elim
  | some t => exact ⟨t, hb, hP⟩

theorem Run.returnsTensor {call : Prog ℝ (PyVal ℝ)} {st : Store ℝ} {P : Tensor ℝ → Prop} {R : Store ℝ → Prop}
    (h : Run call st fun r s' => IsTensor P r ∧ R s') : ∃ t, Returns call st (.tensor t) ∧ P t := by
  obtain ⟨b, hb, s', hP, _⟩ := h.returns
  obtain ⟨t, rfl, ht⟩ := isTensor_iff.1 hP
  exact ⟨t, hb, ht⟩

theorem Run.returnsOptW {p : Nat} {call : Prog ℝ (Option (Tensor ℝ))} {st : Store ℝ} {P : Tensor ℝ → Prop} {R : Store ℝ → Prop}
    (h : Run call st fun r s' => OptW p P r ∧ R s') :
    (0 < p → ∃ t, Returns call st (some t) ∧ P t) ∧ (p = 0 → Returns call st none) := by
  obtain ⟨b, hb, s', hP, _⟩ := h.returns
  constructor
  · intro hp
    rw [OptW, if_neg (by omega)] at hP
    cases b with
    | none => exact hP.elim
    | some t => exact ⟨t, hb, hP⟩
  · intro hp
    rw [OptW, if_pos hp] at hP
    rw [← hP]; exact hb

theorem Run.returnsOptV {p : Nat} {call : Prog ℝ (PyVal ℝ)} {st : Store ℝ} {P : PyVal ℝ → Prop} {R : Store ℝ → Prop}
    (h : Run call st fun r s' => OptV p P r ∧ R s') :
    (0 < p → ∃ v, Returns call st v ∧ P v) ∧ (p = 0 → Returns call st .none) := by
  obtain ⟨b, hb, s', hP, _⟩ := h.returns
  constructor
  · intro hp
    rw [OptV, if_neg (by omega)] at hP
    exact ⟨b, hb, hP⟩
  · intro hp
    rw [OptV, if_pos hp] at hP
    rw [← hP]; exact hb

section
variable {s s' : List Nat} {n k p : Nat} {N : Net s n s' k p} {st : Store ℝ}
variable {B : Nat} {X : Fin B → Fin n → ℝ} {x : Tensor ℝ}

theorem Net.Ok.w (h : N.Ok st) : N.mdl.wired st := (N.mdl_wired st).2 h.wired
theorem Net.Ok.g (h : N.Ok st) : Good N.mdl := N.good h.nodup

/-- Jacobians of the network at each sample -/
noncomputable def Net.J (N : Net s n s' k p) (st : Store ℝ) (x : Fin n → ℝ) : Matrix (Fin k) (Fin n) ℝ := N.sem.J (N.w st) x
noncomputable def Net.JW (N : Net s n s' k p) (st : Store ℝ) (x : Fin n → ℝ) : Matrix (Fin k) (Fin p) ℝ := N.sem.JW (N.w st) x
noncomputable def Net.Q (N : Net s n s' k p) (st : Store ℝ) (x : Fin n → ℝ) : Matrix (Fin k) (Fin n) ℝ := N.sem.Q (N.w st) x
noncomputable def Net.QW (N : Net s n s' k p) (st : Store ℝ) (x : Fin n → ℝ) : Matrix (Fin k) (Fin p) ℝ := N.sem.QW (N.w st) x

theorem Net.mdl_Y (N : Net s n s' k p) : N.mdl.Y st X = fun b => N.sem.f (N.w st) (X b) := by
  funext b; simp only [Mdl.Y, Net.mdl_S, Net.mdl_w]
theorem Net.mdl_J (N : Net s n s' k p) : N.mdl.J st X = fun b => N.J st (X b) := by
  funext b; simp only [Mdl.J, Net.mdl_S, Net.mdl_w, Net.J]
theorem Net.mdl_JW (N : Net s n s' k p) : N.mdl.JW st X = fun b => N.JW st (X b) := by
  funext b; simp only [Mdl.JW, Net.mdl_S, Net.mdl_w, Net.JW]
theorem Net.mdl_Q (N : Net s n s' k p) : N.mdl.Q st X = fun b => N.Q st (X b) := by
  funext b; simp only [Mdl.Q, Net.mdl_S, Net.mdl_w, Net.Q]
theorem Net.mdl_QW (N : Net s n s' k p) : N.mdl.QW st X = fun b => N.QW st (X b) := by
  funext b; simp only [Mdl.QW, Net.mdl_S, Net.mdl_w, Net.QW]

theorem Net.Ok.forward (h : N.Ok st) (hB : 0 < B) (hx : IsBatch x B s n X) :
    ∃ t, Returns (N.mod.forward x) st t ∧ IsBatch t B s' k fun b => N.sem.f (N.w st) (X b) := by
  have := h.g.forward h.w hB hx
  rw [Net.mdl_m, Net.mdl_Y] at this
  obtain ⟨t, ht, s', hP, _⟩ := this.returns
  exact ⟨t, ht, hP⟩

theorem ofSample_isBatch {s : List Nat} {n : Nat} (z : Fin n → ℝ) : IsBatch (ofSample s z) 1 s n fun _ => z :=
  ⟨rfl, fun b i => by simp [ofSample]⟩

theorem Net.Ok.forwardMap_run (h : N.Ok st) (z : Fin n → ℝ) :
    ∃ t, Returns (N.mod.forward (ofSample s z)) st t ∧ IsBatch t 1 s' k fun _ => N.sem.f (N.w st) z :=
  h.forward Nat.one_pos (ofSample_isBatch z)

theorem Net.Ok.forwardMap_eq (h : N.Ok st) : forwardMap N.mod st s = N.sem.f (N.w st) := by
  funext z i
  obtain ⟨t, ht, hT⟩ := h.forwardMap_run z
  simp only [Returns] at ht
  simp only [forwardMap, ht]
  simpa using hT.2 0 i

theorem Net.Ok.jacI (h : N.Ok st) (hB : 0 < B) (hx : IsBatch x B s n X) :
    ∃ t, Returns (N.mod.jacobian x none .input) st (some t) ∧ IsMat t B k n fun b => N.J st (X b) := by
  have := h.g.jacI h.w hB hx
  rw [Net.mdl_m, Net.mdl_J] at this
  exact this.returnsSome

theorem Net.Ok.jacW (h : N.Ok st) (hB : 0 < B) (hx : IsBatch x B s n X) (hp : 0 < p) :
    ∃ t, Returns (N.mod.jacobian x none .weight) st (some t) ∧ IsMat t B k p fun b => N.JW st (X b) := by
  have := h.g.jacW h.w hB hx (.inl hp)
  rw [Net.mdl_m, Net.mdl_JW] at this
  exact this.returnsOptW.1 hp

theorem Net.Ok.jacNone (h : N.Ok st) (hB : 0 < B) (hx : IsBatch x B s n X) (hf : N.FwdW) (hp : p = 0) :
    Returns (N.mod.jacobian x none .weight) st none := by
  have := h.g.jacW h.w hB hx (.inr (N.mdl_fwdW.2 hf))
  rw [Net.mdl_m, Net.mdl_JW] at this
  exact this.returnsOptW.2 hp

theorem Net.Ok.vjpI (h : N.Ok st) (hB : 0 < B) (hx : IsBatch x B s n X) {u : Tensor ℝ} {U} (hu : IsVec u B k U) :
    ∃ t, Returns (N.mod.vjp x none u .input) st (some t) ∧ IsVec t B n fun b => U b ᵥ* N.J st (X b) := by
  have := (h.g.vjpI h.w hB hx hu).2
  rw [Net.mdl_m, Net.mdl_J] at this
  exact this.returnsSome

theorem Net.Ok.vjpW (h : N.Ok st) (hB : 0 < B) (hx : IsBatch x B s n X) {u : Tensor ℝ} {U} (hu : IsVec u B k U) :
    (0 < p → ∃ t, Returns (N.mod.vjp x none u .weight) st (some t) ∧ IsVec t B p fun b => U b ᵥ* N.JW st (X b)) ∧
      (p = 0 → Returns (N.mod.vjp x none u .weight) st none) := by
  have := (h.g.vjpW h.w hB hx hu).2
  rw [Net.mdl_m, Net.mdl_JW] at this
  exact this.returnsOptW

theorem Net.Ok.mjpI (h : N.Ok st) (hB : 0 < B) (hx : IsBatch x B s n X) {r : Nat} (hr : 0 < r) {A : Tensor ℝ} {Z}
    (hA : IsMat A B r k Z) :
    ∃ t, Returns (N.mod.mjp x none (some A) .input) st (some t) ∧ IsMat t B r n fun b => Z b * N.J st (X b) := by
  have := (h.g.mjpI h.w hB hx hr hA).2
  rw [Net.mdl_m, Net.mdl_J] at this
  exact this.returnsSome

theorem Net.Ok.mjpW (h : N.Ok st) (hB : 0 < B) (hx : IsBatch x B s n X) {r : Nat} (hr : 0 < r) {A : Tensor ℝ} {Z}
    (hA : IsMat A B r k Z) :
    (0 < p → ∃ t, Returns (N.mod.mjp x none (some A) .weight) st (some t) ∧ IsMat t B r p fun b => Z b * N.JW st (X b)) ∧
      (p = 0 → Returns (N.mod.mjp x none (some A) .weight) st none) := by
  have := (h.g.mjpW h.w hB hx hr hA).2
  rw [Net.mdl_m, Net.mdl_JW] at this
  exact this.returnsOptW

theorem Net.Ok.jTI (h : N.Ok st) (hB : 0 < B) (hx : IsBatch x B s n X) {A : Tensor ℝ} {Z} (fd td : Bool)
    (hA : MetricArg fd A B k Z) :
    ∃ t, Returns (N.mod.jTmjp x none (some A) .input fd td false) st (.tensor t) ∧
      MetricOut td t B n fun b => (N.J st (X b))ᵀ * Z b * N.J st (X b) := by
  have := (h.g.jTI fd td h.w hB hx hA).2
  rw [Net.mdl_m, Net.mdl_J] at this
  exact this.returnsTensor

theorem Net.Ok.jTIdb (h : N.Ok st) (hB : 0 < B) (hx : IsBatch x B s n X) {A : Tensor ℝ} {d}
    (hA : IsVec A B k d) :
    ∃ t, Returns (N.mod.jTmjp x none (some A) .input true true true) st (.tensor t) ∧
      IsVec t B n fun b => d b ᵥ* N.Q st (X b) := by
  have := (h.g.jTIdb h.w hB hx hA).2
  rw [Net.mdl_m, Net.mdl_Q] at this
  exact this.returnsTensor

theorem Net.Ok.jTWd (h : N.Ok st) (hB : 0 < B) (hx : IsBatch x B s n X) {A : Tensor ℝ} {Z} (fd : Bool)
    (hA : MetricArg fd A B k Z) :
    (0 < p → ∃ t, Returns (N.mod.jTmjp x none (some A) .weight fd true false) st (.tensor t) ∧
      IsVec t B p fun b => diag ((N.JW st (X b))ᵀ * Z b * N.JW st (X b))) ∧
    (p = 0 → Returns (N.mod.jTmjp x none (some A) .weight fd true false) st .none) := by
  have := (h.g.jTWd fd h.w hB hx hA).2
  rw [Net.mdl_m, Net.mdl_JW] at this
  refine ⟨fun hp => ?_, this.returnsOptV.2⟩
  obtain ⟨v, hv, hP⟩ := this.returnsOptV.1 hp
  obtain ⟨t, rfl, ht⟩ := isTensor_iff.1 hP
  exact ⟨t, hv, ht⟩

theorem Net.Ok.jTWdb (h : N.Ok st) (hB : 0 < B) (hx : IsBatch x B s n X) {A : Tensor ℝ} {d}
    (hA : IsVec A B k d) :
    (0 < p → ∃ t, Returns (N.mod.jTmjp x none (some A) .weight true true true) st (.tensor t) ∧
      IsVec t B p fun b => d b ᵥ* N.QW st (X b)) ∧
    (p = 0 → Returns (N.mod.jTmjp x none (some A) .weight true true true) st .none) := by
  have := (h.g.jTWdb h.w hB hx hA).2
  rw [Net.mdl_m, Net.mdl_QW] at this
  refine ⟨fun hp => ?_, this.returnsOptV.2⟩
  obtain ⟨v, hv, hP⟩ := this.returnsOptV.1 hp
  obtain ⟨t, rfl, ht⟩ := isTensor_iff.1 hP
  exact ⟨t, hv, ht⟩

theorem Net.Ok.jTWf (h : N.Ok st) (hB : 0 < B) (hx : IsBatch x B s n X) {A : Tensor ℝ} {Z} (fd : Bool)
    (hA : MetricArg fd A B k Z) :
    (0 < p → ∃ v, Returns (N.mod.jTmjp x none (some A) .weight fd false false) st v ∧
      N.Blocks v B fun b => (N.JW st (X b))ᵀ * Z b * N.JW st (X b)) ∧
    (p = 0 → Returns (N.mod.jTmjp x none (some A) .weight fd false false) st .none) := by
  have := (h.g.jTWf fd h.w hB hx hA).2
  rw [Net.mdl_m, Net.mdl_JW] at this
  refine ⟨fun hp => ?_, this.returnsOptV.2⟩
  obtain ⟨v, hv, hP⟩ := this.returnsOptV.1 hp
  exact ⟨v, hv, (N.mdl_blocks v B _).1 hP⟩

variable (hf : N.FwdI)
include hf

theorem Net.Ok.jvpI (h : N.Ok st) (hB : 0 < B) (hx : IsBatch x B s n X) {u : Tensor ℝ} {U} (hu : IsVec u B n U) :
    ∃ t, Returns (N.mod.jvp x none u .input) st (some t) ∧ IsVec t B k fun b => N.J st (X b) *ᵥ U b := by
  have := (h.g.jvpI (N.mdl_fwdI.2 hf) h.w hB hx hu) none (by simp)
  rw [Net.mdl_m, Net.mdl_J] at this
  exact this.returnsSome

theorem Net.Ok.jvpW (hw : N.FwdW) (h : N.Ok st) (hB : 0 < B) (hx : IsBatch x B s n X) {u : Tensor ℝ} {U} (hu : IsVec u B p U) :
    (0 < p → ∃ t, Returns (N.mod.jvp x none u .weight) st (some t) ∧ IsVec t B k fun b => N.JW st (X b) *ᵥ U b) ∧
      (p = 0 → Returns (N.mod.jvp x none u .weight) st none) := by
  have := (h.g.jvpW (N.mdl_fwdI.2 hf) (N.mdl_fwdW.2 hw) h.w hB hx hu) none (by simp)
  rw [Net.mdl_m, Net.mdl_JW] at this
  exact this.returnsOptW

theorem Net.Ok.jmpI (h : N.Ok st) (hB : 0 < B) (hx : IsBatch x B s n X) {r : Nat} {A : Tensor ℝ} {Z} (hA : IsMat A B n r Z) :
    ∃ t, Returns (N.mod.jmp x none (some A) .input) st (some t) ∧ IsMat t B k r fun b => N.J st (X b) * Z b := by
  have := (h.g.jmpI (N.mdl_fwdI.2 hf) h.w hB hx hA) none (by simp)
  rw [Net.mdl_m, Net.mdl_J] at this
  exact this.returnsSome

theorem Net.Ok.jmpW (hw : N.FwdW) (h : N.Ok st) (hB : 0 < B) (hx : IsBatch x B s n X) {r : Nat} {A : Tensor ℝ} {Z}
    (hA : IsMat A B p r Z) :
    (0 < p → ∃ t, Returns (N.mod.jmp x none (some A) .weight) st (some t) ∧ IsMat t B k r fun b => N.JW st (X b) * Z b) ∧
      (p = 0 → Returns (N.mod.jmp x none (some A) .weight) st none) := by
  have := (h.g.jmpW (N.mdl_fwdI.2 hf) (N.mdl_fwdW.2 hw) h.w hB hx hA) none (by simp)
  rw [Net.mdl_m, Net.mdl_JW] at this
  exact this.returnsOptW

theorem Net.Ok.jmjI (h : N.Ok st) (hB : 0 < B) (hx : IsBatch x B s n X) {A : Tensor ℝ} {Z} (fd td : Bool)
    (hA : MetricArg fd A B n Z) :
    ∃ t, Returns (N.mod.jmjTp x none (.tensor A) .input fd td false) st (some t) ∧
      MetricOut td t B k fun b => N.J st (X b) * Z b * (N.J st (X b))ᵀ := by
  have := (h.g.jmjI (N.mdl_fwdI.2 hf) fd td h.w hB hx hA).2
  rw [Net.mdl_m, Net.mdl_J] at this
  exact this.returnsSome

theorem Net.Ok.jmjIdb (h : N.Ok st) (hB : 0 < B) (hx : IsBatch x B s n X) {A : Tensor ℝ} {d}
    (hA : IsVec A B n d) :
    ∃ t, Returns (N.mod.jmjTp x none (.tensor A) .input true true true) st (some t) ∧
      IsVec t B k fun b => N.Q st (X b) *ᵥ d b := by
  have := (h.g.jmjIdb (N.mdl_fwdI.2 hf) h.w hB hx hA).2
  rw [Net.mdl_m, Net.mdl_Q] at this
  exact this.returnsSome

omit hf in
theorem Net.Ok.jmjW (hq : N.PushW) (hp : 0 < p) (h : N.Ok st) (hB : 0 < B) (hx : IsBatch x B s n X) {v : PyVal ℝ} {Z} (fd td : Bool)
    (hA : N.mdl.arg fd v B Z) :
    ∃ t, Returns (N.mod.jmjTp x none v .weight fd td false) st (some t) ∧
      MetricOut td t B k fun b => N.JW st (X b) * N.sem.mask (Z b) * (N.JW st (X b))ᵀ := by
  have := (h.g.jmjW (N.mdl_pushW.2 hq) hp fd td h.w hB hx hA).2
  rw [Net.mdl_m, Net.mdl_JW, Net.mdl_S] at this
  exact this.returnsSome

omit hf in
theorem Net.Ok.jmjWdb (hq : N.PushW) (hp : 0 < p) (h : N.Ok st) (hB : 0 < B) (hx : IsBatch x B s n X) {A : Tensor ℝ} {d}
    (hA : IsVec A B p d) :
    ∃ t, Returns (N.mod.jmjTp x none (.tensor A) .weight true true true) st (some t) ∧
      IsVec t B k fun b => N.QW st (X b) *ᵥ d b := by
  have := (h.g.jmjWdb (N.mdl_pushW.2 hq) hp h.w hB hx hA).2
  rw [Net.mdl_m, Net.mdl_QW] at this
  exact this.returnsSome

end

end NNJ
