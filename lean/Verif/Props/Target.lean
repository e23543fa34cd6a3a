import Verif.Proofs.LogLikRun
import Verif.Spec.Example

/-!
# C50: the targets the likelihoods accept
-/

namespace NNJ
namespace Props
open LogLik Tensor

variable {s s' : List Nat} {n k p : Nat} {N : Net s n s' k p} {st : Store ℝ}
variable {B : Nat} {X : Fin B → Fin n → ℝ} {x : Tensor ℝ}

/-- the six methods of the likelihoods that take a target raise `e` in state `st`, after the forward pass of the model -/
def AllRaise (cfg : Cfg) (m : Mod ℝ) (x : Tensor ℝ) (target : Option (Tensor ℝ)) (st : Store ℝ) (e : Err) : Prop :=
  gaussianForward cfg m x target st = (.error e, (m.call x st).2) ∧
  binaryForward cfg m x target st = (.error e, (m.call x st).2) ∧
  bernoulliForward cfg m x target st = (.error e, (m.call x st).2) ∧
  ∀ wrt, gaussianGradient cfg m x target wrt st = (.error e, (m.call x st).2) ∧
    binaryGradient cfg m x target wrt st = (.error e, (m.call x st).2) ∧
    bernoulliGradient cfg m x target wrt st = (.error e, (m.call x st).2)

theorem allRaise_of {cfg : Cfg} {m : Mod ℝ} {target : Option (Tensor ℝ)} {e : Err} {b : Nat} (hb : x.dim 0 = .ok b) {val : Tensor ℝ}
    (hv : (m.call x st).1 = .ok val) (he : checkTarget val target = .error e) : AllRaise cfg m x target st e := by
  generalize hq : m.call x = q at hv
  have h1 : q st = (.ok val, (q st).2) := Prod.ext hv rfl
  refine ⟨?_, ?_, ?_, fun wrt => ⟨?_, ?_, ?_⟩⟩
  all_goals
    first
    | rw [gaussianForward]
    | rw [binaryForward]
    | rw [bernoulliForward]
    | rw [gaussianGradient]
    | rw [binaryGradient]
    | rw [bernoulliGradient]
    rw [Res.lift_bind_ok hb, hq, Prog.bind_ok h1, he]
    rfl

/-- C50: the target must be given (AttributeError otherwise) and have the shape of the output, with the batch dimension
(AssertionError otherwise, also where torch could broadcast); the model's forward pass has run by then. -/
theorem C50_target (h : N.Ok st) (hh : st.hooks N.mod.id = []) (hB : 0 < B) (hx : IsBatch x B s n X) (cfg : Cfg) :
    AllRaise cfg N.mod x none st .attribute ∧
    ∀ t : Tensor ℝ, t.shape ≠ B :: s' → AllRaise cfg N.mod x (some t) st .assertion := by
  obtain ⟨val, st1, h1, c⟩ := h.call_run hh hB hx
  have hd : x.dim 0 = .ok B := by simp [Tensor.dim, hx.1]
  refine ⟨allRaise_of hd (by rw [h1]) rfl, fun t ht => allRaise_of hd (by rw [h1]) ?_⟩
  have : ¬ val.shape = t.shape := fun e => ht (by rw [← e, c.out.1])
  simp [checkTarget, assertR, this]

/-- C50: the constructor accepts exactly these arguments, and stores them. -/
theorem C50_init (agg : AggArg) (shape : ShapeArg) (backprop : BackpropArg) :
    ((agg = .none ∨ agg = .sum ∨ agg = .average) ∧ (shape = .full ∨ shape = .diag) ∧ (backprop = .exact ∨ backprop = .approx) →
      init agg shape backprop = .ok ⟨agg, shape, backprop⟩) ∧
    (¬ ((agg = .none ∨ agg = .sum ∨ agg = .average) ∧ (shape = .full ∨ shape = .diag) ∧ (backprop = .exact ∨ backprop = .approx)) →
      init agg shape backprop = .error .assertion) := by
  cases agg <;> cases shape <;> cases backprop <;> simp [init, assertR]

/-- a target without the batch dimension -/
example (cfg : Cfg) : AllRaise cfg exNet.mod exInput (some ⟨[1], fun _ => 3⟩) exStore .assertion :=
  (C50_target exNet_ok rfl (by norm_num) exInput_isBatch cfg).2 _ (by decide)

end Props
end NNJ
