import Verif.Spec.Example
import Verif.Proofs.NetFacts
import Verif.Proofs.Weights
import Verif.Proofs.NoneJmj

/-!
# C13: None exactly for networks without parameters, and `n_params` columns otherwise
-/

namespace NNJ.Props
open NNJ Matrix

variable {s s' : List Nat} {n k p : Nat} {N : Net s n s' k p} {st : Store ℝ} {B : Nat} {x : Tensor ℝ} {X : Fin B → Fin n → ℝ}

/-- Whatever a weight product of a network returns — for any input, `val`, vector or matrix, flags
and state, well formed or not — is None if and only if the network owns no parameter.  (A call may
also raise.) -/
theorem C13_none_iff (N : Net s n s' k p) (x : Tensor ℝ) (val : Option (Tensor ℝ)) (st : Store ℝ) :
    (∀ r, Returns (N.mod.jacobian x val .weight) st r → (r = none ↔ p = 0)) ∧
    (∀ v r, Returns (N.mod.jvp x val v .weight) st r → (r = none ↔ p = 0)) ∧
    (∀ M r, Returns (N.mod.jmp x val M .weight) st r → (r = none ↔ p = 0)) ∧
    (∀ M fd td db r, Returns (N.mod.jmjTp x val M .weight fd td db) st r → (r = none ↔ p = 0)) ∧
    (∀ v r, Returns (N.mod.vjp x val v .weight) st r → (r = none ↔ p = 0)) ∧
    (∀ M r, Returns (N.mod.mjp x val M .weight) st r → (r = none ↔ p = 0)) ∧
    (∀ M fd td db r, Returns (N.mod.jTmjp x val M .weight fd td db) st r → (r = .none ↔ p = 0)) := by
  have h := N.noneIff
  have key : ∀ {β : Type} {q : Prog ℝ β} {P : β → Prop}, Post q P → ∀ r, Returns q st r → P r :=
    fun hq r hr => hq st r (_ : Store ℝ) (Prod.ext hr rfl)
  have e := N.nParams_eq
  refine ⟨fun r hr => ?_, fun v r hr => ?_, fun M r hr => ?_, fun M fd td db r hr => ?_, fun v r hr => ?_, fun M r hr => ?_,
    fun M fd td db r hr => ?_⟩
  · simpa [e] using key (h.jacobian _ _) r hr
  · simpa [e] using key (h.jvp _ _ _) r hr
  · simpa [e] using key (h.jmp _ _ _) r hr
  · simpa [e] using key (h.jmjTp _ _ _ _ _ _) r hr
  · simpa [e] using key (h.vjp _ _ _) r hr
  · simpa [e] using key (h.mjp _ _ _) r hr
  · simpa [e] using key (h.jTmjp _ _ _ _ _ _) r hr

/-- Input products never return None. -/
theorem C13_input_not_none (N : Net s n s' k p) (x : Tensor ℝ) (val : Option (Tensor ℝ)) (st : Store ℝ) :
    ¬ Returns (N.mod.jacobian x val .input) st none ∧
    (∀ v, ¬ Returns (N.mod.jvp x val v .input) st none) ∧
    (∀ M, ¬ Returns (N.mod.jmp x val M .input) st none) ∧
    (∀ M fd td db, ¬ Returns (N.mod.jmjTp x val M .input fd td db) st none) ∧
    (∀ v, ¬ Returns (N.mod.vjp x val v .input) st none) ∧
    (∀ M, ¬ Returns (N.mod.mjp x val M .input) st none) ∧
    (∀ M fd td db, ¬ Returns (N.mod.jTmjp x val M .input fd td db) st .none) := by
  have h := N.noneIff
  have key : ∀ {β : Type} {q : Prog ℝ β} {b : β}, Post q (fun r => r ≠ b) → ¬ Returns q st b :=
    fun {β q b} hq hr => hq st b (q st).2 (Prod.ext hr rfl) rfl
  exact ⟨key (h.jacobianI _ _), fun _ => key (h.jvpI _ _ _), fun _ => key (h.jmpI _ _ _), fun _ _ _ _ => key (h.jmjTpI _ _ _ _ _ _),
    fun _ => key (h.vjpI _ _ _), fun _ => key (h.mjpI _ _ _), fun _ _ _ _ => key (h.jTmjpI _ _ _ _ _ _)⟩

/-- With parameters, `get_weight()` is a vector of some length `m`, and the weight dimension of every
result is `m`. -/
theorem C13_columns (h : N.Ok st) (hd : N.paramIds.Nodup) (hp : 0 < p) (hB : 0 < B) (hx : IsBatch x B s n X) :
    ∃ w m, Returns N.mod.getWeight st w ∧ w.shape = [m] ∧
      (∃ J, Returns (N.mod.jacobian x none .weight) st (some J) ∧ J.shape = [B, k, m]) ∧
      (∀ u : Tensor ℝ, u.shape = [B, k] → ∃ r, Returns (N.mod.vjp x none u .weight) st (some r) ∧ r.shape = [B, m]) ∧
      (∀ (q : Nat) (A : Tensor ℝ), 0 < q → A.shape = [B, q, k] →
        ∃ r, Returns (N.mod.mjp x none (some A) .weight) st (some r) ∧ r.shape = [B, q, m]) ∧
      (∀ A : Tensor ℝ, A.shape = [B, k, k] →
        ∃ r, Returns (N.mod.jTmjp x none (some A) .weight false true false) st (.tensor r) ∧ r.shape = [B, m]) ∧
      (∀ (A : Tensor ℝ) (db : Bool), A.shape = [B, k] →
        ∃ r, Returns (N.mod.jTmjp x none (some A) .weight true true db) st (.tensor r) ∧ r.shape = [B, m]) := by
  obtain ⟨w, hw, hW⟩ := h.getWeight hd hp
  refine ⟨w, p, by rw [Returns, hw], hW.1, ?_, ?_, ?_, ?_, ?_⟩
  · obtain ⟨J, hJ, hJ'⟩ := h.jacW hB hx hp
    exact ⟨J, hJ, hJ'.1⟩
  · intro u hu
    obtain ⟨r, hr, hr'⟩ := (h.vjpW hB hx (U := fun b i => u.get [b, i]) ⟨hu, fun _ _ => rfl⟩).1 hp
    exact ⟨r, hr, hr'.1⟩
  · intro q A hq hA
    obtain ⟨r, hr, hr'⟩ := (h.mjpW hB hx hq (Z := fun b i j => A.get [b, i, j]) ⟨hA, fun _ _ _ => rfl⟩).1 hp
    exact ⟨r, hr, hr'.1⟩
  · intro A hA
    obtain ⟨r, hr, hr'⟩ := (h.jTWd hB hx false (A := A) (Z := fun b i j => A.get [b, i, j]) (by exact ⟨hA, fun _ _ _ => rfl⟩)).1 hp
    exact ⟨r, hr, hr'.1⟩
  · intro A db hA
    cases db with
    | false =>
      obtain ⟨r, hr, hr'⟩ := (h.jTWd hB hx true (A := A) (Z := fun b => diagonal fun i => A.get [b, i])
        (by exact ⟨fun b i => A.get [b, i], ⟨hA, fun _ _ => rfl⟩, fun _ => rfl⟩)).1 hp
      exact ⟨r, hr, hr'.1⟩
    | true =>
      obtain ⟨r, hr, hr'⟩ := (h.jTWdb hB hx (A := A) (d := fun b i => A.get [b, i]) ⟨hA, fun _ _ => rfl⟩).1 hp
      exact ⟨r, hr, hr'.1⟩

/-- The forward products take weight perturbations of exactly that length: with `m` the length of
`get_weight()`, `jvp` maps `[B, m]` to `[B, k]` and `jmp` maps `[B, m, q]` to `[B, k, q]`. -/
theorem C13_forward_columns (hf : N.FwdI) (hw : N.FwdW) (h : N.Ok st) (hd : N.paramIds.Nodup) (hp : 0 < p) (hB : 0 < B)
    (hx : IsBatch x B s n X) :
    ∃ w m, Returns N.mod.getWeight st w ∧ w.shape = [m] ∧
      (∀ u : Tensor ℝ, u.shape = [B, m] → ∃ r, Returns (N.mod.jvp x none u .weight) st (some r) ∧ r.shape = [B, k]) ∧
      (∀ (q : Nat) (A : Tensor ℝ), A.shape = [B, m, q] → ∃ r, Returns (N.mod.jmp x none (some A) .weight) st (some r) ∧ r.shape = [B, k, q]) := by
  obtain ⟨w, hw', hW⟩ := h.getWeight hd hp
  refine ⟨w, p, by rw [Returns, hw'], hW.1, ?_, ?_⟩
  · intro u hu
    obtain ⟨r, hr, hr'⟩ := (Net.Ok.jvpW hf hw h hB hx (U := fun b i => u.get [b, i]) ⟨hu, fun _ _ => rfl⟩).1 hp
    exact ⟨r, hr, hr'.1⟩
  · intro q A hA
    obtain ⟨r, hr, hr'⟩ := (Net.Ok.jmpW hf hw h hB hx (Z := fun b i j => A.get [b, i, j]) ⟨hA, fun _ _ _ => rfl⟩).1 hp
    exact ⟨r, hr, hr'.1⟩

/-- Without parameters, the backward weight products return None (they do not raise). -/
theorem C13_backward_none (h : N.Ok st) (hp : p = 0) (hB : 0 < B) (hx : IsBatch x B s n X) :
    (∀ u : Tensor ℝ, u.shape = [B, k] → Returns (N.mod.vjp x none u .weight) st none) ∧
    (∀ (q : Nat) (A : Tensor ℝ), 0 < q → A.shape = [B, q, k] → Returns (N.mod.mjp x none (some A) .weight) st none) ∧
    (∀ (A : Tensor ℝ) (td : Bool), A.shape = [B, k, k] → Returns (N.mod.jTmjp x none (some A) .weight false td false) st .none) ∧
    (∀ (A : Tensor ℝ) (td : Bool), A.shape = [B, k] → Returns (N.mod.jTmjp x none (some A) .weight true td false) st .none) ∧
    (∀ A : Tensor ℝ, A.shape = [B, k] → Returns (N.mod.jTmjp x none (some A) .weight true true true) st .none) := by
  refine ⟨fun u hu => (h.vjpW hB hx (U := fun b i => u.get [b, i]) ⟨hu, fun _ _ => rfl⟩).2 hp,
    fun q A hq hA => (h.mjpW hB hx hq (Z := fun b i j => A.get [b, i, j]) ⟨hA, fun _ _ _ => rfl⟩).2 hp, fun A td hA => ?_, fun A td hA => ?_,
    fun A hA => (h.jTWdb hB hx (A := A) (d := fun b i => A.get [b, i]) ⟨hA, fun _ _ => rfl⟩).2 hp⟩
  · have hM : MetricArg false A B k fun b i j => A.get [b, i, j] := by exact ⟨hA, fun _ _ _ => rfl⟩
    cases td with
    | true => exact (h.jTWd hB hx false hM).2 hp
    | false => exact (h.jTWf hB hx false hM).2 hp
  · have hM : MetricArg true A B k fun b => diagonal fun i => A.get [b, i] := by
      exact ⟨fun b i => A.get [b, i], ⟨hA, fun _ _ => rfl⟩, fun _ => rfl⟩
    cases td with
    | true => exact (h.jTWd hB hx true hM).2 hp
    | false => exact (h.jTWf hB hx true hM).2 hp

/-- Without parameters (and hence, in a network where every SkipConnection has parameters, without a
SkipConnection) the forward weight products and the Jacobian return None.  What happens around a
SkipConnection without parameters: C36. -/
theorem C13_forward_none (hw : N.FwdW) (h : N.Ok st) (hp : p = 0) (hB : 0 < B) (hx : IsBatch x B s n X) :
    Returns (N.mod.jacobian x none .weight) st none ∧
    (N.FwdI → ∀ u : Tensor ℝ, u.shape = [B, 0] → Returns (N.mod.jvp x none u .weight) st none) ∧
    (N.FwdI → ∀ (q : Nat) (A : Tensor ℝ), A.shape = [B, 0, q] → Returns (N.mod.jmp x none (some A) .weight) st none) ∧
    (∀ (A : Tensor ℝ) (fd td db : Bool), (db = true → fd = true ∧ td = true) →
      Returns (N.mod.jmjTp x none (.tensor A) .weight fd td db) st none) := by
  refine ⟨h.jacNone hB hx hw hp,
    fun hf u hu => (Net.Ok.jvpW hf hw h hB hx (U := fun b i => u.get [b, i]) ⟨hp ▸ hu, fun _ _ => rfl⟩).2 hp,
    fun hf q A hA => (Net.Ok.jmpW hf hw h hB hx (Z := fun b i j => A.get [b, i, j]) ⟨hp ▸ hA, fun _ _ _ => rfl⟩).2 hp, fun A fd td db hdb => ?_⟩
  obtain ⟨v, hv, _⟩ := h.forward hB hx
  refine N.jmjTp_zero hp ?_ hdb (by rw [hx.1]; simp) hv
  intro hs
  cases N with
  | skip id fid ch => exact absurd hw.1 (by omega)
  | _ => exact hs

/-! Non-trivial instances: `exNet` has 21 parameters and a SkipConnection; `noneNet` is
`Sequential(Flatten(), Sequential(Tanh(), ReLU()))` on 2 x 3 samples. -/

/-- a network without parameters -/
noncomputable def noneNet : Net [2, 3] 6 [6] 6 (0 + 0 + (0 + 0 + 0)) :=
  .seq 0 (.snoc (.snoc (.nil [2, 3] 6 rfl (by norm_num)) (.flatten 1 [2, 3] 6 rfl (by norm_num)))
    (.seq 2 (.snoc (.snoc (.nil [6] 6 rfl (by norm_num)) (.act .tanh 3 [6] 6 rfl (by norm_num))) (.act .relu 4 [6] 6 rfl (by norm_num)))))

/-- a state holding it -/
noncomputable def noneStore : Store ℝ where
  param _ := ⟨[], fun _ => 0⟩
  fmaps i := if i = 0 ∨ i = 2 then some [] else none
  pidx _ := none
  hooks i := if i = 1 ∨ i = 2 then [0] else if i = 3 ∨ i = 4 then [2] else []

theorem noneNet_ok : noneNet.Ok noneStore where
  nodup := by decide
  wired := by
    simp [noneNet, Net.Wired, Chain.Wired, Net.mod, noneStore, Activation.toMod, PureLayer.toMod, Resh.flatten, Sequential.mod]

/-- its input -/
noncomputable def noneInput : Tensor ℝ := ofSample [2, 3] fun i : Fin 6 => (i : ℝ) - 2

theorem noneInput_isBatch : IsBatch noneInput 1 [2, 3] 6 fun _ i => (i : ℝ) - 2 := ofSample_isBatch _

example : Returns (noneNet.mod.jacobian noneInput none .weight) noneStore none :=
  (C13_forward_none (by simp [noneNet, Net.FwdW, Chain.FwdW]) noneNet_ok rfl one_pos noneInput_isBatch).1

example : Returns (noneNet.mod.mjp noneInput none (some (Tensor.ones [1, 4, 6])) .weight) noneStore none :=
  (C13_backward_none noneNet_ok rfl one_pos noneInput_isBatch).2.1 4 _ (by norm_num) rfl

example : ∃ w m, Returns exNet.mod.getWeight exStore w ∧ w.shape = [m] ∧
    ∃ J, Returns (exNet.mod.jacobian exInput none .weight) exStore (some J) ∧ J.shape = [2, 1, m] := by
  obtain ⟨w, m, hw, hm, hJ, _⟩ := C13_columns exNet_ok (by decide) (by norm_num) (by norm_num) exInput_isBatch
  exact ⟨w, m, hw, hm, hJ⟩

example : ∃ w m, Returns exNet.mod.getWeight exStore w ∧ w.shape = [m] ∧
    ∀ u : Tensor ℝ, u.shape = [2, m] → ∃ r, Returns (exNet.mod.jvp exInput none u .weight) exStore (some r) ∧ r.shape = [2, 1] := by
  obtain ⟨w, m, hw, hm, hJ, _⟩ := C13_forward_columns (N := exNet) (by simp [exNet, Net.FwdI, Chain.FwdI])
    (by simp [exNet, Net.FwdW, Chain.FwdW]) exNet_ok (by decide) (by norm_num) (by norm_num) exInput_isBatch
  exact ⟨w, m, hw, hm, hJ⟩

end NNJ.Props
