import Verif.Proofs.OtherWrt
import Verif.Proofs.NetFacts
import Verif.Spec.DiagBackprop
import Verif.Spec.Example

/-!
# C51: values of `wrt` other than "input" and "weight"
-/

namespace NNJ
namespace Props
open Tensor

variable {s s' : List Nat} {n k p : Nat} {st : Store ℝ}
variable {B : Nat} {X : Fin B → Fin n → ℝ} {x : Tensor ℝ}

/-- C51: with another `wrt`, no product of any network ever returns a tensor (or a list): it returns `None` or raises — for all
arguments, flags and states. -/
theorem C51_never (N : Net s n s' k p) (x : Tensor ℝ) (val : Option (Tensor ℝ)) (st : Store ℝ) :
    (∀ r, Returns (N.mod.jacobian x val .other) st r → r = none) ∧
    (∀ v r, Returns (N.mod.jvp x val v .other) st r → r = none) ∧
    (∀ m r, Returns (N.mod.jmp x val m .other) st r → r = none) ∧
    (∀ m fd td db r, Returns (N.mod.jmjTp x val m .other fd td db) st r → r = none) ∧
    (∀ v r, Returns (N.mod.vjp x val v .other) st r → r = none) ∧
    (∀ m r, Returns (N.mod.mjp x val m .other) st r → r = none) ∧
    (∀ m fd td db r, Returns (N.mod.jTmjp x val m .other fd td db) st r → r = .none) :=
  ⟨fun _ h => N.otherNone.jacobian x val st _ _ (Prod.ext h rfl),
    fun _ _ h => N.otherNone.jvp x val _ st _ _ (Prod.ext h rfl),
    fun _ _ h => N.otherNone.jmp x val _ st _ _ (Prod.ext h rfl),
    fun _ _ _ _ _ h => N.otherNone.jmjTp x val _ _ _ _ st _ _ (Prod.ext h rfl),
    fun _ _ h => N.otherNone.vjp x val _ st _ _ (Prod.ext h rfl),
    fun _ _ h => N.otherNone.mjp x val _ st _ _ (Prod.ext h rfl),
    fun _ _ _ _ _ h => N.otherNone.jTmjp x val _ _ _ _ st _ _ (Prod.ext h rfl)⟩

/-- C51: a Sequential, whatever its modules, rejects such a `wrt` with AssertionError in jacobian, jvp, jmp, vjp and mjp, before
anything runs; in `jTmjp` it does not: the call has the effect of the one with `wrt="input"` and raises when that one does, but
returns `None` instead of its result; and `jmjTp` accepts it after the forward pass and the check of the flags. -/
theorem C51_sequential (id : Nat) (hk : Bool) (ms : List (Mod ℝ)) (x : Tensor ℝ) (val : Option (Tensor ℝ)) (st : Store ℝ) :
    (Sequential.mod id hk ms).jacobian x val .other st = (.error .assertion, st) ∧
    (∀ v, (Sequential.mod id hk ms).jvp x val v .other st = (.error .assertion, st)) ∧
    (∀ m, (Sequential.mod id hk ms).jmp x val m .other st = (.error .assertion, st)) ∧
    (∀ v, (Sequential.mod id hk ms).vjp x val v .other st = (.error .assertion, st)) ∧
    (∀ m, (Sequential.mod id hk ms).mjp x val m .other st = (.error .assertion, st)) ∧
    (∀ m fd td db, (Sequential.mod id hk ms).jTmjp x val m .other fd td db st =
      (((Sequential.mod id hk ms).jTmjp x val m .input fd td db st).1.map fun _ => .none,
        ((Sequential.mod id hk ms).jTmjp x val m .input fd td db st).2)) ∧
    (∀ v m fd td, (Sequential.mod id hk ms).jmjTp x (some v) m .other fd td false st = (.ok none, st)) ∧
    ∀ m fd td, (Sequential.mod id hk ms).jmjTp x none m .other fd td false st =
      (((Sequential.mod id hk ms).forward x st).1.map fun _ => none, ((Sequential.mod id hk ms).forward x st).2) := by
  obtain ⟨h1, h2, h3, h4, h5⟩ := Sequential.other_raises id hk ms x val st
  refine ⟨h1, h2, h3, h4, h5, fun m fd td db => ?_, fun v m fd td => rfl, fun m fd td => ?_⟩
  · exact Sequential.jTmjp_other id hk ms x val m fd td db st
  · exact Sequential.jmjTp_other id hk ms x m fd td st

/-- C51: a SkipConnection, whatever its modules, raises in these five methods (its inner Sequential does). -/
theorem C51_skip (id fid : Nat) (hk : Bool) (ms : List (Mod ℝ)) (x : Tensor ℝ) (val : Option (Tensor ℝ)) :
    ((SkipConnection.mod id (Sequential.mod fid hk ms)).jacobian x val .other).Raises ∧
    (∀ v, ((SkipConnection.mod id (Sequential.mod fid hk ms)).jvp x val v .other).Raises) ∧
    (∀ m, ((SkipConnection.mod id (Sequential.mod fid hk ms)).jmp x val m .other).Raises) ∧
    (∀ v, ((SkipConnection.mod id (Sequential.mod fid hk ms)).vjp x val v .other).Raises) ∧
    (∀ m, ((SkipConnection.mod id (Sequential.mod fid hk ms)).mjp x val m .other).Raises) :=
  SkipConnection.other_raises id fid hk ms x val

/-- C51: every other layer accepts it silently: `jvp` returns `None` for all arguments and states. -/
theorem C51_leaf (N : Net s n s' k p) (hl : N.Leaf) (x : Tensor ℝ) (val : Option (Tensor ℝ)) (v : Tensor ℝ) (st : Store ℝ) :
    N.mod.jvp x val v .other st = (.ok none, st) := by
  match N, hl with
  | .linear .., _ => rfl
  | .act a _ _ _ _ _, _ => cases a <;> rfl
  | .flatten .., _ => rfl
  | .reshape .., _ => rfl
  | .l2norm .., _ => rfl
  | .conv .., _ => rfl
  | .upsample .., _ => rfl
  | .maxpool .., _ => rfl

/-- C51: so on a network the products `Jᵀ M J` and `J M Jᵀ` accept a misspelt `wrt` (README.md:48 has `wrt="weights"`) and return
`None`, as a module without parameters does for `wrt="weight"`. -/
theorem C51_silent {l : Nat} {id : Nat} {c : Chain s n s' k p (l + 1)} (h : (Net.seq id c).Ok st) (hB : 0 < B) (hx : IsBatch x B s n X)
    {A : Tensor ℝ} {Z} (fd td : Bool) (hA : MetricArg fd A B k Z) (A' : PyVal ℝ) :
    Returns ((Net.seq id c).mod.jTmjp x none (some A) .other fd td false) st .none ∧
    Returns ((Net.seq id c).mod.jmjTp x none A' .other fd td false) st none := by
  constructor
  · obtain ⟨t, h1, -⟩ := h.jTI hB hx fd td hA
    rw [Returns] at h1 ⊢
    simp only [Net.mod] at h1 ⊢
    rw [(C51_sequential _ _ _ _ _ _).2.2.2.2.2.1]
    simp only [h1]; rfl
  · obtain ⟨t, h1, -⟩ := h.forward hB hx
    rw [Returns] at h1 ⊢
    simp only [Net.mod] at h1 ⊢
    rw [(C51_sequential _ _ _ _ none _).2.2.2.2.2.2.2]
    simp only [h1]; rfl

/-- the concrete network meets the hypotheses: its `jTmjp(x, None, ones, wrt="weights", from_diag=True, to_diag=True)` is `None` -/
example : Returns (exNet.mod.jTmjp exInput none (some (ones [2, 1])) .other true true false) exStore .none :=
  (C51_silent exNet_ok (by norm_num) exInput_isBatch true true (Z := fun _ => Matrix.diagonal fun _ => 1)
    ⟨fun _ _ => 1, ⟨rfl, fun _ _ => rfl⟩, fun _ => rfl⟩ .none).1

/-- while its `jacobian(x, None, wrt="weights")` raises AssertionError -/
example : exNet.mod.jacobian exInput none .other exStore = (.error .assertion, exStore) :=
  (C51_sequential _ _ _ _ _ _).1

/-- a layer by itself: `Linear(2, 3).jvp(x, None, v, wrt="weights")` is `None` -/
example : (Net.linear 1 0 (some 1) 2 3 (by norm_num) (by norm_num)).mod.jvp exInput none exInput .other exStore = (.ok none, exStore) :=
  C51_leaf (Net.linear 1 0 (some 1) 2 3 (by norm_num) (by norm_num)) (by simp [Net.Leaf]) _ _ _ _

end Props
end NNJ
