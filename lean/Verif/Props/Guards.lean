import Verif.Proofs.ProgLemmas
import Verif.Model.Conv2d
import Verif.Model.MaxPool2d
import Verif.Model.Upsample
import Verif.Model.Linear

/-!
# C33 (constructor guard), C35, C41: calls that raise, for all arguments and states
-/

set_option linter.unusedSectionVars false

namespace NNJ
namespace Props
open Prog

variable {α : Type} [Zero α] [One α] [Add α] [Mul α]

/-- C41: in a Sequential, `jTmjp` with `diag_backprop=True` but not both diagonal flags raises
AssertionError, whatever the layers, the arguments, the state; nothing is changed. -/
theorem C41_sequential_jTmjp (id : Nat) (addHooks : Bool) (ms : List (Mod α)) (x : Tensor α)
    (val matrix : Option (Tensor α)) (wrt : Wrt) (fromDiag toDiag : Bool)
    (h : ¬ (fromDiag = true ∧ toDiag = true)) (s : Store α) :
    (Sequential.mod id addHooks ms).jTmjp x val matrix wrt fromDiag toDiag true s = (.error .assertion, s) := by
  cases fromDiag <;> cases toDiag <;> simp_all [Sequential.mod, Sequential.jTmjp]

/-- C41: the call of the README, `jTmjp(x, val, None, wrt=..., to_diag=True, diag_backprop=True)`
(with the default `from_diag=False`). -/
theorem C41_readme (id : Nat) (addHooks : Bool) (ms : List (Mod α)) (x val : Tensor α) (wrt : Wrt)
    (s : Store α) :
    (Sequential.mod id addHooks ms).jTmjp x (some val) none wrt false true true s
      = (.error .assertion, s) :=
  C41_sequential_jTmjp id addHooks ms x (some val) none wrt false true (by simp) s

theorem C41_sequential_jmjTp (id : Nat) (addHooks : Bool) (ms : List (Mod α)) (x : Tensor α)
    (val : Option (Tensor α)) (matrix : PyVal α) (wrt : Wrt) (fromDiag toDiag : Bool)
    (h : ¬ (fromDiag = true ∧ toDiag = true)) (s : Store α) :
    (Sequential.mod id addHooks ms).jmjTp x val matrix wrt fromDiag toDiag true s = (.error .assertion, s) := by
  cases fromDiag <;> cases toDiag <;> simp_all [Sequential.mod, Sequential.jmjTp]

theorem C41_skip_jTmjp (id : Nat) (F : Mod α) (x : Tensor α) (val matrix : Option (Tensor α)) (wrt : Wrt)
    (fromDiag toDiag : Bool) (h : ¬ (fromDiag = true ∧ toDiag = true)) (s : Store α) :
    (SkipConnection.mod id F).jTmjp x val matrix wrt fromDiag toDiag true s = (.error .assertion, s) := by
  cases fromDiag <;> cases toDiag <;> simp_all [SkipConnection.mod, SkipConnection.jTmjp]

theorem C41_skip_jmjTp (id : Nat) (F : Mod α) (x : Tensor α) (val : Option (Tensor α)) (matrix : PyVal α)
    (wrt : Wrt) (fromDiag toDiag : Bool) (h : ¬ (fromDiag = true ∧ toDiag = true)) (s : Store α) :
    (SkipConnection.mod id F).jmjTp x val matrix wrt fromDiag toDiag true s = (.error .assertion, s) := by
  cases fromDiag <;> cases toDiag <;> simp_all [SkipConnection.mod, SkipConnection.jmjTp]

/-- The flags of the README call meet the hypothesis of the C41 theorems. -/
example : ¬ ((false : Bool) = true ∧ (true : Bool) = true) := by simp

/-- C33: constructing `Conv2d` with a stride other than (1, 1) raises ValueError. -/
theorem C33_stride_guard (cfg : Conv2d.Cfg) (id wId bId : Nat) (h : cfg.stride ≠ (1, 1)) :
    (Conv2d.init cfg id wId bId : Res (Mod α)) = .error .value := by
  simp [Conv2d.init, h]

/-- ... and with stride (1, 1) and valid groups it succeeds: the guard rejects nothing else. -/
theorem C33_stride_guard_exact (cfg : Conv2d.Cfg) (id wId bId : Nat) (hg : cfg.groups ≠ 0)
    (hi : cfg.inChannels % cfg.groups = 0) (ho : cfg.outChannels % cfg.groups = 0) :
    (∃ m, (Conv2d.init cfg id wId bId : Res (Mod α)) = .ok m) ↔ cfg.stride = (1, 1) := by
  by_cases h : cfg.stride = (1, 1) <;> simp [Conv2d.init, h, hg, hi, ho]

example : ({ inChannels := 3, outChannels := 4, kernel := (2, 2), stride := (2, 1) } : Conv2d.Cfg).stride ≠ (1, 1) := by
  decide

/-- C35, Conv2d: `jvp` raises NotImplementedError for both values of `wrt`, `jmjTp` never returns,
`jmp` with a matrix raises NotImplementedError. -/
theorem C35_conv_jvp (cfg : Conv2d.Cfg) (id wId bId : Nat) (x : Tensor α) (val : Option (Tensor α))
    (v : Tensor α) (wrt : Wrt) (hw : wrt ≠ .other) (s : Store α) :
    (Conv2d.mod cfg id wId bId).jvp x val v wrt s = (.error .notImplemented, s) := by
  cases wrt <;> simp_all [Conv2d.mod, PureLayer.toMod, Conv2d.layer, Conv2d.jvp]

theorem C35_conv_jmp (cfg : Conv2d.Cfg) (id wId bId : Nat) (x : Tensor α) (val : Option (Tensor α))
    (m : Tensor α) (wrt : Wrt) (hw : wrt ≠ .other) (s : Store α) :
    (Conv2d.mod cfg id wId bId).jmp x val (some m) wrt s = (.error .notImplemented, s) := by
  cases wrt <;> simp_all [Conv2d.mod, PureLayer.toMod, Conv2d.layer, Conv2d.jmp]

/-- `jmjTp` of Conv2d with the value supplied raises NotImplementedError. -/
theorem C35_conv_jmjTp_val (cfg : Conv2d.Cfg) (id wId bId : Nat) (x v : Tensor α)
    (m : Tensor α) (wrt : Wrt) (hw : wrt ≠ .other) (fd td db : Bool) (s : Store α) :
    (Conv2d.mod cfg id wId bId).jmjTp x (some v) (.tensor m) wrt fd td db s = (.error .notImplemented, s) := by
  cases wrt <;> simp_all [Conv2d.mod, PureLayer.toMod, Conv2d.layer, Conv2d.jmjTp, Conv2d.getVal,
    PyVal.toOption]

/-- `jmjTp` of Conv2d raises whatever it is given. -/
theorem C35_conv_jmjTp (cfg : Conv2d.Cfg) (id wId bId : Nat) (x : Tensor α) (val : Option (Tensor α))
    (m : PyVal α) (wrt : Wrt) (hw : wrt ≠ .other) (fd td db : Bool) :
    Raises ((Conv2d.mod cfg id wId bId).jmjTp x val m wrt fd td db) := by
  intro s
  suffices h : ∃ e, (do let m ← m.toOption
                        Conv2d.jmjTp cfg (s.param wId) (if cfg.hasBias then some (s.param bId) else none)
                          x val m wrt fd td db) = Except.error e by
    obtain ⟨e, he⟩ := h
    exact ⟨e, s, by simp only [Conv2d.mod, PureLayer.toMod, Conv2d.layer]; rw [he]⟩
  rcases m.toOption with e | m
  · exact ⟨e, rfl⟩
  · simp only [Conv2d.jmjTp, Res.bind_ok]
    rcases Conv2d.getVal cfg (s.param wId) _ x val with e | v
    · exact ⟨e, rfl⟩
    · cases wrt <;> first | exact ⟨_, rfl⟩ | exact absurd rfl hw

/-- C35, Upsample -/
theorem C35_upsample_jvp (f : Upsample.Scale) (id : Nat) (x : Tensor α) (val : Option (Tensor α))
    (v : Tensor α) (s : Store α) :
    (Upsample.mod f id).jvp x val v .input s = (.error .notImplemented, s) := rfl

theorem C35_upsample_jmp (f : Upsample.Scale) (id : Nat) (x : Tensor α) (val : Option (Tensor α))
    (m : Tensor α) (s : Store α) :
    (Upsample.mod f id).jmp x val (some m) .input s = (.error .notImplemented, s) := rfl

theorem C35_upsample_jmjTp (f : Upsample.Scale) (id : Nat) (x : Tensor α) (val : Option (Tensor α))
    (m : PyVal α) (fd td db : Bool) : Raises ((Upsample.mod f id).jmjTp x val m .input fd td db) := by
  intro s
  suffices h : ∃ e, (do let m ← m.toOption
                        Upsample.jmjTp f x val m .input fd td db) = Except.error e by
    obtain ⟨e, he⟩ := h
    exact ⟨e, s, by simp only [Upsample.mod, PureLayer.toMod, Upsample.layer]; rw [he]⟩
  rcases m.toOption with e | m
  · exact ⟨e, rfl⟩
  · simp only [Upsample.jmjTp, Res.bind_ok]
    rcases Upsample.getVal f x val with e | v
    · exact ⟨e, rfl⟩
    · exact ⟨_, rfl⟩

section
variable [LT α] [DecidableLT α]

/-- C35, MaxPool2d -/
theorem C35_maxpool_jvp (a : Torch.PoolArgs) (id : Nat) (x : Tensor α) (val : Option (Tensor α))
    (v : Tensor α) (s : Store α) :
    (MaxPool2d.mod a id).jvp x val v .input s = (.error .notImplemented, s) := rfl

theorem C35_maxpool_jmjTp (a : Torch.PoolArgs) (id : Nat) (x : Tensor α) (val : Option (Tensor α))
    (m : PyVal α) (fd td db : Bool) : Raises ((MaxPool2d.mod a id).jmjTp x val m .input fd td db) :=
  Raises.bind_right _ fun _ => Raises.throw _

end

/-- C35, Sequential: if one of the layers never returns from `jvp` wrt input, neither does the
Sequential. -/
theorem C35_sequential_jvp (id : Nat) (addHooks : Bool) (ms : List (Mod α)) (m : Mod α) (hm : m ∈ ms)
    (h : ∀ x val v, Raises (m.jvp x val v .input)) (x : Tensor α) (val : Option (Tensor α)) (v : Tensor α) :
    Raises ((Sequential.mod id addHooks ms).jvp x val v .input) := by
  have key : ∀ (ms : List (Mod α)), m ∈ ms → ∀ x v, Raises (Sequential.jvpInput ms x v) := by
    intro ms
    induction ms with
    | nil => intro hm; cases hm
    | cons m' ms ih =>
      intro hm x v
      refine Raises.bind_right _ fun val => ?_
      rcases List.mem_cons.mp hm with rfl | hm
      · exact Raises.bind_left (h x (some val) v) _
      · exact Raises.bind_right _ fun _ => Raises.bind_right _ fun _ => ih hm _ _
  exact Raises.bind_right _ fun _ => Raises.bind_left (key ms hm x v) _

/-- ... likewise for `jmjTp` wrt input (`diag_backprop` and flags arbitrary). -/
theorem C35_sequential_jmjTp (id : Nat) (addHooks : Bool) (ms : List (Mod α)) (m : Mod α) (hm : m ∈ ms)
    (h : ∀ x val v fd td db, Raises (m.jmjTp x val v .input fd td db)) (x : Tensor α)
    (val : Option (Tensor α)) (M : PyVal α) (fd td db : Bool) :
    Raises ((Sequential.mod id addHooks ms).jmjTp x val M .input fd td db) := by
  have key : ∀ (ms : List (Mod α)), m ∈ ms → ∀ n fd k M,
      Raises (Sequential.jmjTpInput id n fd td db ms k M) := by
    intro ms
    induction ms with
    | nil => intro hm; cases hm
    | cons m' ms ih =>
      intro hm n fd k M
      refine Raises.bind_right _ fun x => Raises.bind_right _ fun v => ?_
      rcases List.mem_cons.mp hm with rfl | hm
      · exact Raises.bind_left (h _ _ _ _ _ _) _
      · exact Raises.bind_right _ fun _ => ih hm _ _ _ _
  refine Raises.bind_right _ fun _ => Raises.bind_right _ fun _ => ?_
  cases M <;> exact Raises.bind_left (key ms hm _ _ _ _) _

/-- The hypothesis of `C35_sequential_jvp` holds for a network with an upsampling layer between two
linear ones. -/
example (x : Tensor α) (val : Option (Tensor α)) (v : Tensor α) :
    Raises ((Sequential.mod 9 true
      [Linear.mod 0 0 none 4 4, Upsample.mod { num := 2 } 1, Linear.mod 2 2 none 4 4]).jvp x val v .input) :=
  C35_sequential_jvp 9 true _ (Upsample.mod { num := 2 } 1) (by simp)
    (fun x val v s => ⟨_, s, C35_upsample_jvp _ 1 x val v s⟩) x val v

end Props
end NNJ
