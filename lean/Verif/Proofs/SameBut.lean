import Verif.Proofs.NoneIff

/-!
Modules that differ only in `jTmjp` with a diagonal flag or without `matrix`; Sequentials and SkipConnections of such
modules differ only there.
-/

set_option linter.unusedSectionVars false

namespace NNJ
open Tensor

variable {α : Type}

/-- the same methods, except for `jTmjp` with a diagonal flag or without `matrix` -/
structure SameBut (m m' : Mod α) : Prop where
  id : m.id = m'.id
  nParams : m.nParams = m'.nParams
  params : m.params = m'.params
  forward : m.forward = m'.forward
  jacobian : m.jacobian = m'.jacobian
  jvp : m.jvp = m'.jvp
  jmp : m.jmp = m'.jmp
  jmjTp : m.jmjTp = m'.jmjTp
  vjp : m.vjp = m'.vjp
  mjp : m.mjp = m'.mjp
  jTmjp : ∀ x val A wrt, m.jTmjp x val (some A) wrt false false false = m'.jTmjp x val (some A) wrt false false false

theorem SameBut.refl (m : Mod α) : SameBut m m := ⟨rfl, rfl, rfl, rfl, rfl, rfl, rfl, rfl, rfl, rfl, fun _ _ _ _ => rfl⟩

theorem SameBut.call {m m' : Mod α} (h : SameBut m m') : m.call = m'.call := by
  funext x; simp only [Mod.call, h.forward, h.id]

/-- only the results that the first program can return matter for the second one -/
theorem bind_congr_post {β γ : Type} {p : Prog α β} {f g : β → Prog α γ} {P : β → Prop} (hp : Post p P) (h : ∀ b, P b → f b = g b) :
    (p >>= f) = (p >>= g) := by
  funext s
  rw [Prog.bind_run, Prog.bind_run]
  rcases hs : p s with ⟨r, s'⟩
  cases r with
  | error e => rfl
  | ok b => simp only [h b (hp s b s' hs)]

theorem bind_congr_right {β γ : Type} {p : Prog α β} {f g : β → Prog α γ} (h : ∀ b, f b = g b) : (p >>= f) = (p >>= g) := by
  rw [show f = g from funext h]

namespace Sequential
variable {ms ms' : List (Mod α)} (h : List.Forall₂ SameBut ms ms')
include h

theorem child_congr {β : Type} {g g' : Mod α → Prog α β} (k : Nat) (hg : ∀ m ∈ ms, ∀ m', SameBut m m' → g m = g' m') :
    (child ms k >>= g) = (child ms' k >>= g') := by
  induction h generalizing k with
  | nil => rfl
  | cons hm _ ih =>
    cases k with
    | zero => exact funext fun s => congrFun (hg _ (by simp) _ hm) s
    | succ k => exact ih k fun m hm' m' => hg m (by simp [hm']) m'

theorem run_congr : ∀ x, run ms x = run ms' x := by
  induction h with
  | nil => intro x; rfl
  | cons hm _ ih => intro x; simp only [run, hm.call, ih]

theorem forward_congr (id : Nat) (b : Bool) : forward id b ms = forward id b ms' := by
  funext x; simp only [forward, run_congr h]

theorem getVal_congr (id : Nat) (b : Bool) : getVal id b ms = getVal id b ms' := by
  funext x val; cases val <;> simp only [getVal, forward_congr h]

theorem nParams_congr : nParams ms = nParams ms' := by
  induction h with
  | nil => rfl
  | cons hm _ ih => simp only [nParams, List.map_cons, List.sum_cons, hm.nParams] at ih ⊢; rw [ih]

theorem params_congr : (ms.map Mod.params).flatten = (ms'.map Mod.params).flatten := by
  induction h with
  | nil => rfl
  | cons hm _ ih => simp only [List.map_cons, List.flatten_cons, hm.params, ih]

theorem jvpInput_congr : ∀ x v, jvpInput ms x v = jvpInput ms' x v := by
  induction h with
  | nil => intro x v; rfl
  | cons hm _ ih => intro x v; simp only [jvpInput, hm.call, hm.jvp, ih]

theorem jvpWeight_congr [Add α] (vector : Tensor α) : ∀ x p acc, jvpWeight vector ms x p acc = jvpWeight vector ms' x p acc := by
  induction h with
  | nil => intro x p acc; rfl
  | cons hm _ ih => intro x p acc; simp only [jvpWeight, hm.call, hm.jvp, hm.nParams, ih]

theorem jmpInput_congr : ∀ x v, jmpInput ms x v = jmpInput ms' x v := by
  induction h with
  | nil => intro x v; rfl
  | cons hm _ ih => intro x v; simp only [jmpInput, hm.call, hm.jmp, ih]

theorem jmpWeight_congr [Add α] (matrix : Tensor α) : ∀ x p acc, jmpWeight matrix ms x p acc = jmpWeight matrix ms' x p acc := by
  induction h with
  | nil => intro x p acc; rfl
  | cons hm _ ih => intro x p acc; simp only [jmpWeight, hm.call, hm.jmp, hm.nParams, ih]

theorem vjpInput_congr (id : Nat) : ∀ k v, vjpInput id ms k v = vjpInput id ms' k v := by
  intro k
  induction k with
  | zero => intro v; rfl
  | succ k ih => intro v; exact child_congr h k fun m _ m' hm => by simp only [hm.vjp, ih]

theorem vjpWeight_congr (id : Nat) : ∀ k v acc, vjpWeight id ms k v acc = vjpWeight id ms' k v acc := by
  intro k
  induction k with
  | zero => intro v acc; rfl
  | succ k ih => intro v acc; exact child_congr h k fun m _ m' hm => by simp only [hm.vjp, ih]

theorem mjpInput_congr (id : Nat) : ∀ k v, mjpInput id ms k v = mjpInput id ms' k v := by
  intro k
  induction k with
  | zero => intro v; rfl
  | succ k ih => intro v; exact child_congr h k fun m _ m' hm => by simp only [hm.mjp, ih]

theorem mjpWeight_congr (id : Nat) : ∀ k v acc, mjpWeight id ms k v acc = mjpWeight id ms' k v acc := by
  intro k
  induction k with
  | zero => intro v acc; rfl
  | succ k ih => intro v acc; exact child_congr h k fun m _ m' hm => by simp only [hm.mjp, ih]

theorem jmjTpInput_congr (id n : Nat) (fd td db : Bool) : ∀ k v, jmjTpInput id n fd td db ms k v = jmjTpInput id n fd td db ms' k v := by
  induction h with
  | nil => intro k v; rfl
  | cons hm _ ih => intro k v; simp only [jmjTpInput, hm.jmjTp, ih]

theorem splitBlocks_congr (matrix : Tensor α) (fd : Bool) : ∀ p, splitBlocks matrix fd ms p = splitBlocks matrix fd ms' p := by
  induction h with
  | nil => intro p; rfl
  | cons hm _ ih => intro p; simp only [splitBlocks, hm.nParams, ih]

theorem jmjTpWeight_congr [Add α] (id n : Nat) (fd td db : Bool) (blocks : List (PyVal α)) :
    ∀ k kp acc, jmjTpWeight id n fd td db blocks ms k kp acc = jmjTpWeight id n fd td db blocks ms' k kp acc := by
  induction h with
  | nil => intro k kp acc; rfl
  | cons hm _ ih => intro k kp acc; simp only [jmjTpWeight, hm.jmjTp, hm.nParams, ih]

variable (hN : ∀ m ∈ ms, NoneIff m)
include hN

theorem jTmjpInput_congr (id n : Nat) : ∀ k A, jTmjpInput id n ms false false false k (some A) = jTmjpInput id n ms' false false false k (some A) := by
  intro k
  induction k with
  | zero => intro A; rfl
  | succ k ih =>
    intro A
    refine child_congr h k fun m hmem m' hm => bind_congr_right fun x => bind_congr_right fun v => ?_
    simp only [ite_self, ← hm.jTmjp]
    refine bind_congr_post ((hN m hmem).jTmjpI _ _ _ _ _ _) fun r hr => ?_
    cases r with
    | none => exact absurd rfl hr
    | list _ => rfl
    | tensor t => exact funext fun s => congrFun (ih t) s

theorem jTmjpWeight_congr (id n : Nat) : ∀ k A acc,
    jTmjpWeight id n ms false false false k (some A) acc = jTmjpWeight id n ms' false false false k (some A) acc := by
  intro k
  induction k with
  | zero => intro A acc; rfl
  | succ k ih =>
    intro A acc
    refine child_congr h k fun m hmem m' hm => bind_congr_right fun x => bind_congr_right fun v => ?_
    simp only [ite_self, ← hm.jTmjp]
    refine bind_congr_right fun mk => ?_
    split
    · rfl
    refine bind_congr_post ((hN m hmem).jTmjpI _ _ _ _ _ _) fun r hr => ?_
    cases r with
    | none => exact absurd rfl hr
    | list _ => rfl
    | tensor t => exact funext fun s => congrFun (ih t _) s

theorem sameBut [Zero α] [One α] [Add α] (id : Nat) (b : Bool) : SameBut (mod id b ms) (mod id b ms') := by
  have hl := h.length_eq
  have hm : mjp id b ms = mjp id b ms' := by
    funext x val A wrt; cases wrt <;> simp only [mjp, getVal_congr h, mjpInput_congr h, mjpWeight_congr h, hl]
  have hj : jacobian id b ms = jacobian id b ms' := by funext x val wrt; simp only [jacobian, hm]
  refine ⟨rfl, nParams_congr h, params_congr h, forward_congr h id b, hj, ?_, ?_, ?_, ?_, hm, ?_⟩ <;> simp only [mod]
  · funext x val v wrt; cases wrt <;> simp only [jvp, jvpInput_congr h, jvpWeight_congr h, nParams_congr h]
  · funext x val A wrt
    cases A <;> cases wrt <;> simp only [jmp, hj, jmpInput_congr h, jmpWeight_congr h, nParams_congr h]
  · funext x val A wrt fd td db
    cases wrt <;> simp only [jmjTp, getVal_congr h, jmjTpInput_congr h, jmjTpWeight_congr h, splitBlocks_congr h, nParams_congr h, hl]
  · funext x val v wrt; cases wrt <;> simp only [vjp, getVal_congr h, vjpInput_congr h, vjpWeight_congr h, hl]
  · intro x val A wrt
    cases wrt <;> simp only [jTmjp, getVal_congr h]
    all_goals refine bind_congr_right fun _ => bind_congr_right fun v => ?_
    · have e : ∀ g : Option (Tensor α) → Prog α (PyVal α), (jTmjpInput id ms.length ms false false false ms.length (some A) >>= g) =
          (jTmjpInput id ms'.length ms' false false false ms'.length (some A) >>= g) := by
        intro g; rw [hl, jTmjpInput_congr h hN]
      exact funext fun s => congrFun (e _) s
    · have e : ∀ g : List (PyVal α) → Prog α (PyVal α), (jTmjpWeight id ms.length ms false false false ms.length (some A) [] >>= g) =
          (jTmjpWeight id ms'.length ms' false false false ms'.length (some A) [] >>= g) := by
        intro g; rw [hl, jTmjpWeight_congr h hN]
      exact funext fun s => congrFun (e _) s
    · have e : ∀ g : Option (Tensor α) → Prog α (PyVal α), (jTmjpInput id ms.length ms false false false ms.length (some A) >>= g) =
          (jTmjpInput id ms'.length ms' false false false ms'.length (some A) >>= g) := by
        intro g; rw [hl, jTmjpInput_congr h hN]
      exact funext fun s => congrFun (e _) s

end Sequential

namespace SkipConnection
variable {F F' : Mod α} [Zero α] [One α] [Add α] [Mul α]

theorem sameBut (h : SameBut F F') (id : Nat) : SameBut (mod id F) (mod id F') := by
  have hf : forward F = forward F' := by funext x; simp only [forward, h.call]
  have hg : getVal F = getVal F' := by funext x val; cases val <;> simp only [getVal, hf]
  have hj : jacobian F = jacobian F' := by funext n x val wrt; cases wrt <;> simp only [jacobian, hg, h.jacobian]
  refine ⟨rfl, h.nParams, h.params, hf, ?_, ?_, ?_, ?_, ?_, ?_, ?_⟩ <;> simp only [mod]
  · simp only [hj, h.nParams]
  · funext x val v wrt; cases wrt <;> simp only [jvp, h.jvp]
  · funext x val A wrt; cases A <;> cases wrt <;> simp only [jmp, h.jmp, hj, h.nParams]
  · funext x val A wrt fd td db; cases wrt <;> simp only [jmjTp, hg, h.jmjTp, h.jmp]
  · funext x val v wrt; cases wrt <;> simp only [vjp, h.vjp]
  · funext x val A wrt; cases A <;> cases wrt <;> simp only [mjp, h.mjp, hj, h.nParams]
  · intro x val A wrt; cases wrt <;> simp only [jTmjp, hg, h.mjp, h.jTmjp]

end SkipConnection
end NNJ
