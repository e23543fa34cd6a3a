import Verif.Proofs.Views
import Verif.Spec.Sem

/-!
# Contracts

What every module method guarantees: its result in terms of the semantics `Sem`, and which part of
the state it changes.
-/

namespace NNJ
open Tensor Matrix

/-- `p` run in state `s` returns normally, with `Q result newState`. -/
def Run {β : Type} (p : Prog ℝ β) (s : Store ℝ) (Q : β → Store ℝ → Prop) : Prop :=
  ∃ r s', p s = (.ok r, s') ∧ Q r s'

namespace Run
variable {β γ : Type} {s : Store ℝ}

theorem pure {b : β} {Q : β → Store ℝ → Prop} (h : Q b s) : Run (Pure.pure b) s Q := ⟨b, s, rfl, h⟩
theorem pure' {b : β} {Q : β → Store ℝ → Prop} (h : Q b s) : Run (Prog.pure b) s Q := ⟨b, s, rfl, h⟩

theorem bind {p : Prog ℝ β} {f : β → Prog ℝ γ} {P : β → Store ℝ → Prop} {Q : γ → Store ℝ → Prop}
    (hp : Run p s P) (hf : ∀ b s', P b s' → Run (f b) s' Q) : Run (p >>= f) s Q := by
  obtain ⟨b, s', hb, hP⟩ := hp
  obtain ⟨c, s'', hc, hQ⟩ := hf b s' hP
  exact ⟨c, s'', by rw [Prog.bind_ok hb, hc], hQ⟩

theorem lift {p : Res β} {P : β → Prop} {Q : β → Store ℝ → Prop} (hp : Ret p P)
    (hf : ∀ b, P b → Q b s) : Run (liftM p : Prog ℝ β) s Q := by
  obtain ⟨b, rfl, hb⟩ := hp
  exact ⟨b, s, rfl, hf b hb⟩

theorem bindLift {p : Res β} {f : β → Prog ℝ γ} {P : β → Prop} {Q : γ → Store ℝ → Prop} (hp : Ret p P)
    (hf : ∀ b, P b → Run (f b) s Q) : Run ((liftM p : Prog ℝ β) >>= f) s Q := by
  obtain ⟨b, rfl, hb⟩ := hp
  exact hf b hb

theorem bindPure {b : β} {f : β → Prog ℝ γ} {Q : γ → Store ℝ → Prop} (h : Run (f b) s Q) :
    Run ((Pure.pure b : Prog ℝ β) >>= f) s Q := h

theorem bindAssert {c : Bool} {f : Unit → Prog ℝ γ} {Q : γ → Store ℝ → Prop} (hc : c = true)
    (h : Run (f ()) s Q) : Run (Prog.assert c >>= f) s Q := by subst hc; exact h

theorem mono {p : Prog ℝ β} {P Q : β → Store ℝ → Prop} (hp : Run p s P) (h : ∀ b s', P b s' → Q b s') :
    Run p s Q := by
  obtain ⟨b, s', hb, hP⟩ := hp
  exact ⟨b, s', hb, h b s' hP⟩

/-- `need` after a call that returns a tensor -/
theorem bindNeed {p : Prog ℝ (Option (Tensor ℝ))} {f : Tensor ℝ → Prog ℝ γ} {P : Tensor ℝ → Prop}
    {R : Store ℝ → Prop} {Q : γ → Store ℝ → Prop} (hp : Run p s fun r s' => IsSome P r ∧ R s')
    (hf : ∀ t s', P t → R s' → Run (f t) s' Q) : Run (do let t ← p; let t ← Prog.need t; f t) s Q := by
  refine hp.bind fun r s' ⟨hr, hs⟩ => ?_
  cases r with
  | none => exact hr.elim
  | some t => exact hf t s' hr hs

theorem ofEq {p : Prog ℝ β} {s' : Store ℝ} {r : β} {Q : β → Store ℝ → Prop} (h : p s = (.ok r, s')) (hQ : Q r s') :
    Run p s Q := ⟨r, s', h, hQ⟩

end Run

/-- Nothing but feature maps and pooling indices of the modules in `ids` may differ; attributes do
not appear or disappear. -/
structure Step (ids : List Nat) (s s' : Store ℝ) : Prop where
  param : s'.param = s.param
  hooks : s'.hooks = s.hooks
  some : ∀ i, (s'.fmaps i).isSome = (s.fmaps i).isSome
  frame : ∀ i, i ∉ ids → s'.fmaps i = s.fmaps i ∧ s'.pidx i = s.pidx i

namespace Step
variable {ids ids' : List Nat} {s s' s'' : Store ℝ}
theorem refl : Step ids s s := ⟨rfl, rfl, fun _ => rfl, fun _ _ => ⟨rfl, rfl⟩⟩
theorem trans (h : Step ids s s') (h' : Step ids s' s'') : Step ids s s'' :=
  ⟨h'.param.trans h.param, h'.hooks.trans h.hooks, fun i => (h'.some i).trans (h.some i), fun i hi =>
    ⟨(h'.frame i hi).1.trans (h.frame i hi).1, (h'.frame i hi).2.trans (h.frame i hi).2⟩⟩
theorem mono (h : Step ids s s') (hsub : ∀ i ∈ ids, i ∈ ids') : Step ids' s s' :=
  ⟨h.param, h.hooks, h.some, fun i hi => h.frame i fun hh => hi (hsub i hh)⟩
end Step

/-- same shapes of parameters, same hooks, same attributes present -/
structure Wiring (s s' : Store ℝ) : Prop where
  param : ∀ i, (s'.param i).shape = (s.param i).shape
  hooks : s'.hooks = s.hooks
  some : ∀ i, (s'.fmaps i).isSome = (s.fmaps i).isSome

theorem Step.wiring {ids : List Nat} {s s' : Store ℝ} (h : Step ids s s') : Wiring s s' :=
  ⟨fun i => by rw [h.param], h.hooks, h.some⟩

/-- weight results: `None` without parameters -/
def OptW (p : Nat) (P : Tensor ℝ → Prop) (r : Option (Tensor ℝ)) : Prop :=
  if p = 0 then r = none else IsSome P r

/-- a `PyVal` that is a tensor -/
def IsTensor (P : Tensor ℝ → Prop) : PyVal ℝ → Prop
  | .tensor t => P t
  | _ => False

/-- weight results of type `PyVal`: `None` without parameters -/
def OptV (p : Nat) (P : PyVal ℝ → Prop) (r : PyVal ℝ) : Prop :=
  if p = 0 then r = .none else P r

/-- A module with its semantics.
* `ids`: identities of the module objects inside;
* `wired`: the state holds it properly constructed;
* `w`: its parameter vector; `cache B X`: the caches are those of a forward pass on the batch `X`;
* `anyVal`: products that get `val` do not look at it;
* `blocks`: how a full weight-space metric is returned; `arg`: how it can be passed;
* `fwdI`, `fwdW`: the forward-mode products are supported;
* `pushW`: `jmjTp` with respect to the weights is supported. -/
structure Mdl (sI : List Nat) (n : Nat) (sO : List Nat) (k p : Nat) where
  m : Mod ℝ
  S : Sem n k p
  ids : List Nat
  wired : Store ℝ → Prop
  w : Store ℝ → Fin p → ℝ
  cache : (B : Nat) → (Fin B → Fin n → ℝ) → Store ℝ → Prop
  anyVal : Prop
  blocks : PyVal ℝ → (B : Nat) → (Fin B → Matrix (Fin p) (Fin p) ℝ) → Prop
  arg : Bool → PyVal ℝ → (B : Nat) → (Fin B → Matrix (Fin p) (Fin p) ℝ) → Prop
  fwdI : Prop
  fwdW : Prop
  pushW : Prop

namespace Mdl
variable {sI sO : List Nat} {n k p : Nat} (M : Mdl sI n sO k p) {β : Type}

/-- output, Jacobians, squared Jacobians for each sample -/
def Y (s : Store ℝ) {B : Nat} (X : Fin B → Fin n → ℝ) (b : Fin B) : Fin k → ℝ := M.S.f (M.w s) (X b)
def J (s : Store ℝ) {B : Nat} (X : Fin B → Fin n → ℝ) (b : Fin B) := M.S.J (M.w s) (X b)
def JW (s : Store ℝ) {B : Nat} (X : Fin B → Fin n → ℝ) (b : Fin B) := M.S.JW (M.w s) (X b)
def Q (s : Store ℝ) {B : Nat} (X : Fin B → Fin n → ℝ) (b : Fin B) := M.S.Q (M.w s) (X b)
def QW (s : Store ℝ) {B : Nat} (X : Fin B → Fin n → ℝ) (b : Fin B) := M.S.QW (M.w s) (X b)

/-- an acceptable `val` argument -/
def VOk (s : Store ℝ) {B : Nat} (X : Fin B → Fin n → ℝ) (v : Tensor ℝ) : Prop :=
  M.anyVal ∨ IsBatch v B sO k (M.Y s X)

/-- a call that, with `val` and valid caches, changes nothing, and without `val` leaves valid caches -/
def Back (s : Store ℝ) {B : Nat} (X : Fin B → Fin n → ℝ) (call : Option (Tensor ℝ) → Prog ℝ β)
    (post : β → Prop) : Prop :=
  (∀ v, M.VOk s X v → M.cache B X s → Run (call (some v)) s fun r s' => post r ∧ s' = s) ∧
  Run (call none) s fun r s' => post r ∧ Step M.ids s s' ∧ M.cache B X s'

/-- the same for calls that need not look at the input: without `val`, valid caches stay valid -/
def BackW (s : Store ℝ) {B : Nat} (X : Fin B → Fin n → ℝ) (call : Option (Tensor ℝ) → Prog ℝ β)
    (post : β → Prop) : Prop :=
  (∀ v, M.VOk s X v → M.cache B X s → Run (call (some v)) s fun r s' => post r ∧ s' = s) ∧
  Run (call none) s fun r s' => post r ∧ Step M.ids s s' ∧ (M.cache B X s → M.cache B X s')

/-- the same when the call may also touch the caches -/
def BackS (s : Store ℝ) {B : Nat} (X : Fin B → Fin n → ℝ) (call : Option (Tensor ℝ) → Prog ℝ β)
    (post : β → Prop) : Prop :=
  (∀ v, M.VOk s X v → M.cache B X s → Run (call (some v)) s fun r s' => post r ∧ Step M.ids s s' ∧ M.cache B X s') ∧
  Run (call none) s fun r s' => post r ∧ Step M.ids s s' ∧ M.cache B X s'

variable {M} in
theorem Back.toW {s : Store ℝ} {B : Nat} {X : Fin B → Fin n → ℝ} {call : Option (Tensor ℝ) → Prog ℝ β} {post : β → Prop} (h : M.Back s X call post) :
    M.BackW s X call post := ⟨h.1, h.2.mono fun _ _ ⟨h1, h2, h3⟩ => ⟨h1, h2, fun _ => h3⟩⟩

/-- forward-mode calls recompute everything; valid caches stay valid -/
def Fwd (s : Store ℝ) {B : Nat} (X : Fin B → Fin n → ℝ) (call : Option (Tensor ℝ) → Prog ℝ β)
    (post : β → Prop) : Prop :=
  ∀ val, (∀ v ∈ val, M.VOk s X v) →
    Run (call val) s fun r s' => post r ∧ Step M.ids s s' ∧ (M.cache B X s → M.cache B X s')

end Mdl

/-- The part of the contract about the forward pass, `jacobian` and the backward products with respect to the input. -/
structure GoodI {sI sO : List Nat} {n k p : Nat} (M : Mdl sI n sO k p) : Prop where
  hn : size sI = n
  hk : size sO = k
  npos : 0 < n
  kpos : 0 < k
  id_mem : M.m.id ∈ M.ids
  wired_of : ∀ {s s'}, Wiring s s' → M.wired s → M.wired s'
  w_of : ∀ {s s'}, s'.param = s.param → M.w s' = M.w s
  cache_frame : ∀ {B X s s'}, s'.param = s.param → (∀ i ∈ M.ids, s'.fmaps i = s.fmaps i ∧ s'.pidx i = s.pidx i) →
    M.cache B X s → M.cache B X s'
  forward : ∀ {s B X x}, M.wired s → 0 < B → IsBatch x B sI n X →
    Run (M.m.forward x) s fun v s' => IsBatch v B sO k (M.Y s X) ∧ Step M.ids s s' ∧ M.cache B X s'
  jacI : ∀ {s B X x}, M.wired s → 0 < B → IsBatch x B sI n X →
    Run (M.m.jacobian x none .input) s fun r s' =>
      IsSome (fun t => IsMat t B k n (M.J s X)) r ∧ Step M.ids s s' ∧ M.cache B X s'
  vjpI : ∀ {s B X x u U}, M.wired s → 0 < B → IsBatch x B sI n X → IsVec u B k U →
    M.Back s X (fun val => M.m.vjp x val u .input) (IsSome fun t => IsVec t B n fun b => U b ᵥ* M.J s X b)
  mjpI : ∀ {s B X x r A Z}, M.wired s → 0 < B → IsBatch x B sI n X → 0 < r → IsMat A B r k Z →
    M.Back s X (fun val => M.m.mjp x val (some A) .input) (IsSome fun t => IsMat t B r n fun b => Z b * M.J s X b)
  jTI : ∀ {s B X x A Z} (fd td : Bool), M.wired s → 0 < B → IsBatch x B sI n X → MetricArg fd A B k Z →
    M.Back s X (fun val => M.m.jTmjp x val (some A) .input fd td false)
      (IsTensor fun t => MetricOut td t B n fun b => (M.J s X b)ᵀ * Z b * M.J s X b)
  jTIdb : ∀ {s B X x A d}, M.wired s → 0 < B → IsBatch x B sI n X → IsVec A B k d →
    M.Back s X (fun val => M.m.jTmjp x val (some A) .input true true true)
      (IsTensor fun t => IsVec t B n fun b => d b ᵥ* M.Q s X b)

/-- The contract. -/
structure Good {sI sO : List Nat} {n k p : Nat} (M : Mdl sI n sO k p) : Prop extends GoodI M where
  nParams : M.m.nParams = p
  arg_of_metric : ∀ {fd t B Z}, MetricArg fd t B p Z → M.arg fd (.tensor t) B Z
  arg_of_blocks : ∀ {v B Z}, M.blocks v B Z → M.arg false v B Z
  blocks_ne : ∀ {v B Z}, M.blocks v B Z → v ≠ .none
  mask_diag : ∀ d, M.S.mask (diagonal d) = diagonal d
  jacW : ∀ {s B X x}, M.wired s → 0 < B → IsBatch x B sI n X → (0 < p ∨ M.fwdW) →
    Run (M.m.jacobian x none .weight) s fun r s' =>
      OptW p (fun t => IsMat t B k p (M.JW s X)) r ∧ Step M.ids s s' ∧ (M.cache B X s → M.cache B X s')
  vjpW : ∀ {s B X x u U}, M.wired s → 0 < B → IsBatch x B sI n X → IsVec u B k U →
    M.BackW s X (fun val => M.m.vjp x val u .weight) (OptW p fun t => IsVec t B p fun b => U b ᵥ* M.JW s X b)
  mjpW : ∀ {s B X x r A Z}, M.wired s → 0 < B → IsBatch x B sI n X → 0 < r → IsMat A B r k Z →
    M.BackW s X (fun val => M.m.mjp x val (some A) .weight) (OptW p fun t => IsMat t B r p fun b => Z b * M.JW s X b)
  jTWd : ∀ {s B X x A Z} (fd : Bool), M.wired s → 0 < B → IsBatch x B sI n X → MetricArg fd A B k Z →
    M.Back s X (fun val => M.m.jTmjp x val (some A) .weight fd true false)
      (OptV p (IsTensor fun t => IsVec t B p fun b => diag ((M.JW s X b)ᵀ * Z b * M.JW s X b)))
  jTWdb : ∀ {s B X x A d}, M.wired s → 0 < B → IsBatch x B sI n X → IsVec A B k d →
    M.Back s X (fun val => M.m.jTmjp x val (some A) .weight true true true)
      (OptV p (IsTensor fun t => IsVec t B p fun b => d b ᵥ* M.QW s X b))
  jTWf : ∀ {s B X x A Z} (fd : Bool), M.wired s → 0 < B → IsBatch x B sI n X → MetricArg fd A B k Z →
    M.Back s X (fun val => M.m.jTmjp x val (some A) .weight fd false false)
      (OptV p fun v => M.blocks v B fun b => (M.JW s X b)ᵀ * Z b * M.JW s X b)
  jvpI : M.fwdI → ∀ {s B X x u U}, M.wired s → 0 < B → IsBatch x B sI n X → IsVec u B n U →
    M.Fwd s X (fun val => M.m.jvp x val u .input) (IsSome fun t => IsVec t B k fun b => M.J s X b *ᵥ U b)
  jvpW : M.fwdI → M.fwdW → ∀ {s B X x u U}, M.wired s → 0 < B → IsBatch x B sI n X → IsVec u B p U →
    M.Fwd s X (fun val => M.m.jvp x val u .weight) (OptW p fun t => IsVec t B k fun b => M.JW s X b *ᵥ U b)
  jmpI : M.fwdI → ∀ {s B X x r A Z}, M.wired s → 0 < B → IsBatch x B sI n X → IsMat A B n r Z →
    M.Fwd s X (fun val => M.m.jmp x val (some A) .input) (IsSome fun t => IsMat t B k r fun b => M.J s X b * Z b)
  jmpW : M.fwdI → M.fwdW → ∀ {s B X x r A Z}, M.wired s → 0 < B → IsBatch x B sI n X → IsMat A B p r Z →
    M.Fwd s X (fun val => M.m.jmp x val (some A) .weight) (OptW p fun t => IsMat t B k r fun b => M.JW s X b * Z b)
  jmjI : M.fwdI → ∀ {s B X x A Z} (fd td : Bool), M.wired s → 0 < B → IsBatch x B sI n X → MetricArg fd A B n Z →
    M.BackS s X (fun val => M.m.jmjTp x val (.tensor A) .input fd td false)
      (IsSome fun t => MetricOut td t B k fun b => M.J s X b * Z b * (M.J s X b)ᵀ)
  jmjIdb : M.fwdI → ∀ {s B X x A d}, M.wired s → 0 < B → IsBatch x B sI n X → IsVec A B n d →
    M.BackS s X (fun val => M.m.jmjTp x val (.tensor A) .input true true true)
      (IsSome fun t => IsVec t B k fun b => M.Q s X b *ᵥ d b)
  jmjW : M.pushW → 0 < p → ∀ {s B X x v Z} (fd td : Bool), M.wired s → 0 < B → IsBatch x B sI n X → M.arg fd v B Z →
    M.BackS s X (fun val => M.m.jmjTp x val v .weight fd td false)
      (IsSome fun t => MetricOut td t B k fun b => M.JW s X b * M.S.mask (Z b) * (M.JW s X b)ᵀ)
  jmjWdb : M.pushW → 0 < p → ∀ {s B X x A d}, M.wired s → 0 < B → IsBatch x B sI n X → IsVec A B p d →
    M.BackS s X (fun val => M.m.jmjTp x val (.tensor A) .weight true true true)
      (IsSome fun t => IsVec t B k fun b => M.QW s X b *ᵥ d b)

instance {sI sO : List Nat} {n k p : Nat} {M : Mdl sI n sO k p} : Coe (Good M) (GoodI M) := ⟨Good.toGoodI⟩

end NNJ
