import Verif.Spec.Calls
import Verif.Proofs.Weights
import Verif.Model.MaxPool2d

/-! Whatever a method is called with, and whether it returns or raises: parameters keep their shapes,
hooks stay registered, attributes do not disappear. -/

namespace NNJ
open Tensor

/-- what no method call changes -/
structure Keeps (s s' : Store ℝ) : Prop where
  param : ∀ i, (s'.param i).shape = (s.param i).shape
  hooks : s'.hooks = s.hooks
  some : ∀ i, (s.fmaps i).isSome → (s'.fmaps i).isSome

theorem Keeps.refl {s : Store ℝ} : Keeps s s := ⟨fun _ => rfl, rfl, fun _ h => h⟩
theorem Keeps.trans {s s' s'' : Store ℝ} (h : Keeps s s') (h' : Keeps s' s'') : Keeps s s'' :=
  ⟨fun i => (h'.param i).trans (h.param i), h'.hooks.trans h.hooks, fun i hi => h'.some i (h.some i hi)⟩

/-- every run of `p` keeps -/
def KP {β : Type} (p : Prog ℝ β) : Prop := ∀ s, Keeps s (p s).2

namespace KP
variable {β γ : Type}
theorem pure (b : β) : KP (Pure.pure b : Prog ℝ β) := fun _ => .refl
theorem pure' (b : β) : KP (Prog.pure b : Prog ℝ β) := fun _ => .refl
theorem throw (e : Err) : KP (Prog.throw e : Prog ℝ β) := fun _ => .refl
theorem lift (r : Res β) : KP (liftM r : Prog ℝ β) := fun _ => .refl
theorem read (f : Store ℝ → β) : KP (Prog.read f : Prog ℝ β) := fun _ => .refl
theorem assert (c : Bool) : KP (Prog.assert c : Prog ℝ Unit) := by
  cases c
  · exact throw _
  · exact pure' _
theorem need (v : Option (Tensor ℝ)) : KP (Prog.need v : Prog ℝ (Tensor ℝ)) := by
  cases v
  · exact throw _
  · exact pure' _
theorem same {p : Prog ℝ β} (h : ∀ s, (p s).2 = s) : KP p := fun s => by rw [h s]; exact .refl
theorem bind {p : Prog ℝ β} {f : β → Prog ℝ γ} (hp : KP p) (hf : ∀ b, KP (f b)) : KP (p >>= f) := by
  intro s
  have h1 := hp s
  rw [Prog.bind_run]
  rcases hps : p s with ⟨r, s'⟩
  rw [hps] at h1
  cases r with
  | ok b => exact h1.trans (hf b s')
  | error e => exact h1
end KP

/-- solves `KP` goals of do-blocks -/
macro "keeps" : tactic => `(tactic| repeat' (first
  | assumption
  | apply KP.pure | apply KP.pure' | apply KP.throw | apply KP.lift | apply KP.read | apply KP.assert | apply KP.need
  | (refine KP.bind ?_ fun _ => ?_)
  | split))

theorem kp_runHook (v : Tensor ℝ) (i : Nat) : KP (Mod.runHook v i) := by
  intro s
  simp only [Mod.runHook]
  split
  · refine ⟨fun _ => rfl, rfl, fun j hj => ?_⟩
    by_cases h : j = i
    · simp [h]
    · simpa [h] using hj
  · exact .refl

theorem kp_runHooks (v : Tensor ℝ) (is : List Nat) : KP (Mod.runHooks v is) := by
  induction is with
  | nil => exact KP.pure' _
  | cons i is ih => exact KP.bind (kp_runHook v i) fun _ => ih

/-- every method keeps -/
structure Tame (m : Mod ℝ) : Prop where
  forward : ∀ x, KP (m.forward x)
  jacobian : ∀ x v w, KP (m.jacobian x v w)
  jvp : ∀ x v u w, KP (m.jvp x v u w)
  jmp : ∀ x v u w, KP (m.jmp x v u w)
  jmjTp : ∀ x v u w a b c, KP (m.jmjTp x v u w a b c)
  vjp : ∀ x v u w, KP (m.vjp x v u w)
  mjp : ∀ x v u w, KP (m.mjp x v u w)
  jTmjp : ∀ x v u w a b c, KP (m.jTmjp x v u w a b c)

theorem Tame.call {m : Mod ℝ} (h : Tame m) (x : Tensor ℝ) : KP (m.call x) :=
  KP.bind (h.forward x) fun _ => KP.bind (KP.read _) fun _ => KP.bind (kp_runHooks _ _) fun _ => KP.pure _

theorem tame_pure (L : Store ℝ → PureLayer ℝ) (id np : Nat) (ps : List Nat) : Tame (PureLayer.toMod L id np ps) := by
  constructor <;> intros <;> exact KP.same fun _ => rfl

/-! ### MaxPool2d -/

section
open MaxPool2d

theorem kp_poolForward (id : Nat) (a : Torch.PoolArgs) (x : Tensor ℝ) : KP (MaxPool2d.forward id a x) := by
  refine KP.bind (KP.lift _) fun r => KP.bind ?_ fun _ => KP.pure _
  exact fun s => ⟨fun _ => rfl, rfl, fun _ h => h⟩

theorem kp_poolVal (id : Nat) (a : Torch.PoolArgs) (x : Tensor ℝ) (val : Option (Tensor ℝ)) : KP (getVal id a x val) := by
  cases val with
  | none => exact kp_poolForward id a x
  | some v => exact KP.pure' v

theorem kp_poolIdx (id : Nat) : KP (getIdx id : Prog ℝ (Tensor Nat)) := by
  refine KP.same fun s => ?_
  simp only [getIdx]
  split <;> rfl

theorem kp_poolJmp (id : Nat) (a : Torch.PoolArgs) (x : Tensor ℝ) (val : Option (Tensor ℝ)) (m : Tensor ℝ) (w : Wrt) : KP (jmpSome id a x val m w) := by
  cases w with
  | input => exact KP.bind (kp_poolVal _ _ _ _) fun _ => KP.bind (kp_poolIdx _) fun _ => KP.bind (KP.lift _) fun _ => KP.pure _
  | weight => exact KP.pure _
  | other => exact KP.pure _

theorem kp_poolJac (id : Nat) (a : Torch.PoolArgs) (x : Tensor ℝ) (val : Option (Tensor ℝ)) (w : Wrt) : KP (MaxPool2d.jacobian id a x val w) := by
  cases w with
  | input =>
    exact KP.bind (kp_poolVal _ _ _ _) fun _ => KP.bind (KP.lift _) fun _ => KP.bind (KP.lift _) fun _ => KP.bind (KP.assert _) fun _ =>
      KP.bind (KP.lift _) fun _ => kp_poolJmp _ _ _ _ _ _
  | weight => exact KP.pure _
  | other => exact KP.pure _

theorem tame_pool (a : Torch.PoolArgs) (id : Nat) : Tame (MaxPool2d.mod a id) where
  forward := kp_poolForward id a
  jacobian := kp_poolJac id a
  jvp x v u w := by
    show KP (MaxPool2d.jvp x v u w)
    cases w with
    | input => exact KP.throw _
    | weight => exact KP.pure _
    | other => exact KP.pure _
  jmp x v u w := by
    show KP (MaxPool2d.jmp id a x v u w)
    cases u with
    | none => exact kp_poolJac _ _ _ _ _
    | some m => exact kp_poolJmp _ _ _ _ _ _
  jmjTp x v u w fd td db := by
    show KP (MaxPool2d.jmjTp id a x v u w fd td db)
    refine KP.bind (kp_poolVal _ _ _ _) fun _ => ?_
    cases w with
    | input => exact KP.throw _
    | weight => exact KP.pure _
    | other => exact KP.pure _
  vjp x v u w := by
    show KP (MaxPool2d.vjp id a x v u w)
    cases w with
    | input => exact KP.bind (kp_poolVal _ _ _ _) fun _ => KP.bind (kp_poolIdx _) fun _ => KP.bind (KP.lift _) fun _ => KP.pure _
    | weight => exact KP.pure _
    | other => exact KP.pure _
  mjp x v u w := by
    show KP (MaxPool2d.mjp id a x v u w)
    cases u with
    | none => exact kp_poolJac _ _ _ _ _
    | some m =>
      cases w with
      | input => exact KP.bind (kp_poolVal _ _ _ _) fun _ => KP.bind (kp_poolIdx _) fun _ => KP.bind (KP.lift _) fun _ => KP.pure _
      | weight => exact KP.pure _
      | other => exact KP.pure _
  jTmjp x v u w fd td db := by
    show KP (MaxPool2d.jTmjp id a x v u w fd td db)
    refine KP.bind (kp_poolVal _ _ _ _) fun _ => KP.bind (KP.lift _) fun _ => KP.bind (KP.lift _) fun _ => KP.bind (KP.assert _) fun _ =>
      KP.bind (KP.lift _) fun _ => ?_
    have h0 := kp_poolIdx id
    have h : ∀ f : Tensor Nat → Prog ℝ (PyVal ℝ), (∀ i, KP (f i)) → KP (getIdx id >>= f) := fun f hf => KP.bind (kp_poolIdx _) hf
    cases w with
    | input =>
      split
      dsimp only
      split
      · exact KP.bind (KP.assert _) fun _ => h _ fun _ => KP.bind (KP.lift _) fun _ => KP.pure _
      · exact KP.bind (KP.assert _) fun _ => h _ fun _ => KP.bind (KP.lift _) fun _ => KP.pure _
    | weight => keeps
    | other => keeps

end

/-! ### Sequential -/

section
variable {ms : List (Mod ℝ)}

theorem kp_fmap (id k : Nat) : KP (Sequential.fmap id k : Prog ℝ (Tensor ℝ)) := by
  refine KP.same fun s => ?_
  simp only [Sequential.fmap]
  split
  · rfl
  · split <;> rfl

theorem kp_child (ms : List (Mod ℝ)) (hms : ∀ m ∈ ms, Tame m) (k : Nat) {β : Type} {f : Mod ℝ → Prog ℝ β}
    (hf : ∀ m, Tame m → KP (f m)) : KP (Sequential.child ms k >>= f) := by
  intro s
  rw [Prog.bind_run]
  simp only [Sequential.child]
  cases h : ms[k]? with
  | none => exact .refl
  | some m => exact hf m (hms m (List.mem_of_getElem? h)) s

theorem kp_listGet (vs : List (PyVal ℝ)) (k : Nat) : KP (Sequential.listGet vs k) := by
  refine KP.same fun s => ?_
  simp only [Sequential.listGet]
  split <;> rfl

theorem kp_run (h : ∀ m ∈ ms, Tame m) (x : Tensor ℝ) : KP (Sequential.run ms x) := by
  induction ms generalizing x with
  | nil => exact KP.pure _
  | cons m ms ih => exact KP.bind ((h m (by simp)).call x) fun _ => ih (fun m hm => h m (by simp [hm])) _

theorem kp_seqForward (h : ∀ m ∈ ms, Tame m) (id : Nat) (x : Tensor ℝ) : KP (Sequential.forward id true ms x) := by
  intro s
  simp only [Sequential.forward, if_true]
  refine Keeps.trans (s' := { s with fmaps := fun j => if j = id then some [x] else s.fmaps j }) ?_ (kp_run h x _)
  refine ⟨fun _ => rfl, rfl, fun j hj => ?_⟩
  by_cases e : j = id
  · simp [e]
  · simpa [e] using hj

theorem kp_getVal (h : ∀ m ∈ ms, Tame m) (id : Nat) (x : Tensor ℝ) (val : Option (Tensor ℝ)) : KP (Sequential.getVal id true ms x val) := by
  cases val with
  | none => exact kp_seqForward h id x
  | some v => exact KP.pure _

theorem kp_jvpInput (h : ∀ m ∈ ms, Tame m) (x v : Tensor ℝ) : KP (Sequential.jvpInput ms x v) := by
  induction ms generalizing x v with
  | nil => exact KP.pure _
  | cons m ms ih =>
    have hm := h m (by simp)
    simp only [Sequential.jvpInput]
    exact KP.bind (hm.call x) fun _ => KP.bind (hm.jvp _ _ _ _) fun _ => KP.bind (KP.need _) fun _ => ih (fun m hm => h m (by simp [hm])) _ _

theorem kp_through (acc : Option (Tensor ℝ)) (f : Tensor ℝ → Prog ℝ (Option (Tensor ℝ))) (h : ∀ a, KP (f a)) :
    KP (Sequential.through acc f) := by
  cases acc with
  | none => exact KP.pure _
  | some a => exact h a

theorem kp_jvpWeight (h : ∀ m ∈ ms, Tame m) (u x : Tensor ℝ) (p : Nat) (acc : Option (Tensor ℝ)) : KP (Sequential.jvpWeight u ms x p acc) := by
  induction ms generalizing x p acc with
  | nil => exact KP.pure _
  | cons m ms ih =>
    have hm := h m (by simp)
    simp only [Sequential.jvpWeight]
    exact KP.bind (hm.call x) fun _ => KP.bind (kp_through _ _ fun _ => hm.jvp _ _ _ _) fun _ => KP.bind (KP.lift _) fun _ =>
      KP.bind (hm.jvp _ _ _ _) fun _ => KP.bind (KP.lift _) fun _ => ih (fun m hm => h m (by simp [hm])) _ _ _

theorem kp_jmpInput (h : ∀ m ∈ ms, Tame m) (x v : Tensor ℝ) : KP (Sequential.jmpInput ms x v) := by
  induction ms generalizing x v with
  | nil => exact KP.pure _
  | cons m ms ih =>
    have hm := h m (by simp)
    simp only [Sequential.jmpInput]
    exact KP.bind (hm.call x) fun _ => KP.bind (hm.jmp _ _ _ _) fun _ => KP.bind (KP.need _) fun _ => ih (fun m hm => h m (by simp [hm])) _ _

theorem kp_jmpWeight (h : ∀ m ∈ ms, Tame m) (u x : Tensor ℝ) (p : Nat) (acc : Option (Tensor ℝ)) : KP (Sequential.jmpWeight u ms x p acc) := by
  induction ms generalizing x p acc with
  | nil => exact KP.pure _
  | cons m ms ih =>
    have hm := h m (by simp)
    simp only [Sequential.jmpWeight]
    exact KP.bind (hm.call x) fun _ => KP.bind (kp_through _ _ fun _ => hm.jmp _ _ _ _) fun _ => KP.bind (KP.lift _) fun _ =>
      KP.bind (hm.jmp _ _ _ _) fun _ => KP.bind (KP.lift _) fun _ => ih (fun m hm => h m (by simp [hm])) _ _ _

theorem kp_vjpInput (h : ∀ m ∈ ms, Tame m) (id k : Nat) (v : Tensor ℝ) : KP (Sequential.vjpInput id ms k v) := by
  induction k generalizing v with
  | zero => exact KP.pure _
  | succ k ih =>
    simp only [Sequential.vjpInput]
    exact kp_child ms h k fun m hm => KP.bind (kp_fmap _ _) fun _ => KP.bind (kp_fmap _ _) fun _ => KP.bind (hm.vjp _ _ _ _) fun _ =>
      KP.bind (KP.need _) fun _ => ih _

theorem kp_vjpWeight (h : ∀ m ∈ ms, Tame m) (id k : Nat) (v : Tensor ℝ) (vs : List (Tensor ℝ)) : KP (Sequential.vjpWeight id ms k v vs) := by
  induction k generalizing v vs with
  | zero => exact KP.pure _
  | succ k ih =>
    simp only [Sequential.vjpWeight]
    refine kp_child ms h k fun m hm => KP.bind (kp_fmap _ _) fun _ => KP.bind (kp_fmap _ _) fun _ => KP.bind (hm.vjp _ _ _ _) fun _ => ?_
    split
    · exact KP.pure _
    · exact KP.bind (hm.vjp _ _ _ _) fun _ => KP.bind (KP.need _) fun _ => ih _ _

theorem kp_mjpInput (h : ∀ m ∈ ms, Tame m) (id k : Nat) (v : Tensor ℝ) : KP (Sequential.mjpInput id ms k v) := by
  induction k generalizing v with
  | zero => exact KP.pure _
  | succ k ih =>
    simp only [Sequential.mjpInput]
    exact kp_child ms h k fun m hm => KP.bind (kp_fmap _ _) fun _ => KP.bind (kp_fmap _ _) fun _ => KP.bind (hm.mjp _ _ _ _) fun _ =>
      KP.bind (KP.need _) fun _ => ih _

theorem kp_mjpWeight (h : ∀ m ∈ ms, Tame m) (id k : Nat) (v : Tensor ℝ) (vs : List (Tensor ℝ)) : KP (Sequential.mjpWeight id ms k v vs) := by
  induction k generalizing v vs with
  | zero => exact KP.pure _
  | succ k ih =>
    simp only [Sequential.mjpWeight]
    refine kp_child ms h k fun m hm => KP.bind (kp_fmap _ _) fun _ => KP.bind (kp_fmap _ _) fun _ => KP.bind (hm.mjp _ _ _ _) fun _ => ?_
    split
    · exact KP.pure _
    · exact KP.bind (hm.mjp _ _ _ _) fun _ => KP.bind (KP.need _) fun _ => ih _ _

theorem kp_jTmjpInput (h : ∀ m ∈ ms, Tame m) (id n : Nat) (a b c : Bool) (k : Nat) (v : Option (Tensor ℝ)) :
    KP (Sequential.jTmjpInput id n ms a b c k v) := by
  induction k generalizing v with
  | zero => exact KP.pure _
  | succ k ih =>
    simp only [Sequential.jTmjpInput]
    exact kp_child ms h k fun m hm => KP.bind (kp_fmap _ _) fun _ => KP.bind (kp_fmap _ _) fun _ => KP.bind (hm.jTmjp _ _ _ _ _ _ _) fun _ =>
      KP.bind (KP.lift _) fun _ => ih _

theorem kp_jTmjpWeight (h : ∀ m ∈ ms, Tame m) (id n : Nat) (a b c : Bool) (k : Nat) (v : Option (Tensor ℝ)) (vs : List (PyVal ℝ)) :
    KP (Sequential.jTmjpWeight id n ms a b c k v vs) := by
  induction k generalizing v vs with
  | zero => exact KP.pure _
  | succ k ih =>
    simp only [Sequential.jTmjpWeight]
    refine kp_child ms h k fun m hm => KP.bind (kp_fmap _ _) fun _ => KP.bind (kp_fmap _ _) fun _ => KP.bind (hm.jTmjp _ _ _ _ _ _ _) fun _ => ?_
    split
    · exact KP.pure _
    · exact KP.bind (hm.jTmjp _ _ _ _ _ _ _) fun _ => KP.bind (KP.lift _) fun _ => ih _ _

theorem kp_jmjTpInput (h : ∀ m ∈ ms, Tame m) (id n : Nat) (a b c : Bool) (k : Nat) (v : PyVal ℝ) :
    KP (Sequential.jmjTpInput id n a b c ms k v) := by
  induction ms generalizing k v with
  | nil => exact KP.pure _
  | cons m ms ih =>
    have hm := h m (by simp)
    simp only [Sequential.jmjTpInput]
    exact KP.bind (kp_fmap _ _) fun _ => KP.bind (kp_fmap _ _) fun _ => KP.bind (hm.jmjTp _ _ _ _ _ _ _) fun _ =>
      ih (fun m hm => h m (by simp [hm])) _ _

theorem kp_jmjTpWeight (h : ∀ m ∈ ms, Tame m) (id n : Nat) (a b c : Bool) (bl : List (PyVal ℝ)) (k kp : Nat) (acc : Option (Tensor ℝ)) :
    KP (Sequential.jmjTpWeight id n a b c bl ms k kp acc) := by
  induction ms generalizing k kp acc with
  | nil => exact KP.pure _
  | cons m ms ih =>
    have hm := h m (by simp)
    have ih' := ih (fun m hm => h m (by simp [hm]))
    simp only [Sequential.jmjTpWeight]
    refine KP.bind (kp_through _ _ fun _ => KP.bind (kp_fmap _ _) fun _ => KP.bind (kp_fmap _ _) fun _ => hm.jmjTp _ _ _ _ _ _ _) fun _ => ?_
    split
    · exact ih' _ _ _
    · exact KP.bind (kp_fmap _ _) fun _ => KP.bind (kp_fmap _ _) fun _ => KP.bind (kp_listGet _ _) fun _ =>
        KP.bind (hm.jmjTp _ _ _ _ _ _ _) fun _ => KP.bind (KP.lift _) fun _ => ih' _ _ _

theorem kp_seqMjp (h : ∀ m ∈ ms, Tame m) (id : Nat) (x : Tensor ℝ) (val M : Option (Tensor ℝ)) (w : Wrt) : KP (Sequential.mjp id true ms x val M w) := by
  have h1 := @kp_mjpInput ms h
  have h2 := @kp_mjpWeight ms h
  simp only [Sequential.mjp]
  refine KP.bind (KP.assert _) fun _ => KP.bind (kp_getVal h _ _ _) fun _ => KP.bind (KP.lift _) fun _ => ?_
  split
  · exact KP.bind (h1 _ _ _) fun _ => KP.pure _
  · exact KP.bind (h2 _ _ _ _) fun _ => KP.lift _
  · exact KP.pure _

theorem tame_seq (h : ∀ m ∈ ms, Tame m) (id : Nat) : Tame (Sequential.mod id true ms) where
  forward x := kp_seqForward h id x
  jacobian x v w := kp_seqMjp h id x v none w
  jvp x v u w := by
    simp only [Sequential.mod, Sequential.jvp]
    refine KP.bind (KP.assert _) fun _ => ?_
    cases w with
    | input => exact KP.bind (kp_jvpInput h _ _) fun _ => KP.pure _
    | weight => exact KP.bind (kp_jvpWeight h _ _ _ _) fun _ => KP.bind (KP.assert _) fun _ => KP.pure _
    | other => exact KP.pure _
  jmp x v u w := by
    simp only [Sequential.mod, Sequential.jmp]
    refine KP.bind (KP.assert _) fun _ => ?_
    cases u with
    | none => exact kp_seqMjp h id x v none w
    | some u =>
      cases w with
      | input => exact KP.bind (kp_jmpInput h _ _) fun _ => KP.pure _
      | weight => exact KP.bind (kp_jmpWeight h _ _ _ _) fun _ => KP.bind (KP.assert _) fun _ => KP.pure _
      | other => exact KP.pure _
  jmjTp x v u w a b c := by
    simp only [Sequential.mod, Sequential.jmjTp]
    refine KP.bind (KP.assert _) fun _ => KP.bind (kp_getVal h _ _ _) fun _ => ?_
    cases w with
    | input => exact KP.bind (kp_jmjTpInput h _ _ _ _ _ _ _) fun _ => KP.lift _
    | weight =>
      have hW := @kp_jmjTpWeight ms h
      refine KP.bind (KP.lift _) fun _ => ?_
      split
      · exact KP.bind (KP.pure _) fun _ => hW _ _ _ _ _ _ _ _ _
      · exact KP.bind (KP.lift _) fun _ => KP.bind (KP.assert _) fun _ => KP.bind (KP.pure _) fun _ => hW _ _ _ _ _ _ _ _ _
      · exact KP.bind (KP.throw _) fun _ => hW _ _ _ _ _ _ _ _ _
    | other => exact KP.pure _
  vjp x v u w := by
    simp only [Sequential.mod, Sequential.vjp]
    refine KP.bind (KP.assert _) fun _ => KP.bind (kp_getVal h _ _ _) fun _ => ?_
    cases w with
    | input => exact KP.bind (kp_vjpInput h _ _ _) fun _ => KP.pure _
    | weight => exact KP.bind (kp_vjpWeight h _ _ _ _) fun _ => KP.lift _
    | other => exact KP.pure _
  mjp x v u w := kp_seqMjp h id x v u w
  jTmjp x v u w a b c := by
    simp only [Sequential.mod, Sequential.jTmjp]
    refine KP.bind (KP.assert _) fun _ => KP.bind (kp_getVal h _ _ _) fun _ => KP.bind (KP.lift _) fun _ => ?_
    cases w with
    | input => exact KP.bind (kp_jTmjpInput h _ _ _ _ _ _ _) fun _ => KP.pure _
    | weight =>
      refine KP.bind (kp_jTmjpWeight h _ _ _ _ _ _ _ _) fun _ => ?_
      split
      · exact KP.pure _
      · split
        · exact KP.bind (KP.lift _) fun _ => KP.bind (KP.lift _) fun _ => KP.pure _
        · exact KP.pure _
    | other => exact KP.bind (kp_jTmjpInput h _ _ _ _ _ _ _) fun _ => KP.pure _

end

/-! ### SkipConnection -/

section
variable {F : Mod ℝ}

theorem kp_skipForward (h : Tame F) (x : Tensor ℝ) : KP (SkipConnection.forward F x) :=
  KP.bind (h.call x) fun _ => KP.lift _

theorem kp_skipGetVal (h : Tame F) (x : Tensor ℝ) (val : Option (Tensor ℝ)) : KP (SkipConnection.getVal F x val) := by
  cases val with
  | none => exact kp_skipForward h x
  | some v => exact KP.pure _

theorem kp_skipJacobian (h : Tame F) (np : Nat) (x : Tensor ℝ) (val : Option (Tensor ℝ)) (w : Wrt) : KP (SkipConnection.jacobian F np x val w) := by
  have h1 := h.jacobian
  have h2 := @kp_skipGetVal F h
  simp only [SkipConnection.jacobian]
  refine KP.bind (h1 _ _ _) fun _ => KP.bind (KP.lift _) fun _ => KP.bind (KP.lift _) fun _ => KP.bind (h2 _ _) fun _ => ?_
  cases w <;> keeps

theorem tame_skip (h : Tame F) (id : Nat) : Tame (SkipConnection.mod id F) where
  forward x := kp_skipForward h x
  jacobian x v w := kp_skipJacobian h _ x v w
  jvp x v u w := by
    simp only [SkipConnection.mod, SkipConnection.jvp]
    refine KP.bind (KP.lift _) fun _ => KP.bind (KP.lift _) fun _ => KP.bind (KP.lift _) fun _ => KP.bind (h.jvp _ _ _ _) fun _ => ?_
    cases w <;> keeps
  jmp x v u w := by
    simp only [SkipConnection.mod, SkipConnection.jmp]
    cases u with
    | none => exact kp_skipJacobian h _ x v w
    | some u =>
      refine KP.bind (KP.lift _) fun _ => KP.bind (KP.lift _) fun _ => KP.bind (KP.lift _) fun _ => KP.bind (h.jmp _ _ _ _) fun _ => ?_
      cases w <;> keeps
  jmjTp x v u w a b c := by
    simp only [SkipConnection.mod, SkipConnection.jmjTp]
    refine KP.bind (KP.assert _) fun _ => KP.bind (kp_skipGetVal h _ _) fun _ => KP.bind (KP.lift _) fun _ => KP.bind (KP.lift _) fun _ =>
      KP.bind (KP.lift _) fun _ => KP.bind (KP.lift _) fun _ => KP.bind (h.jmjTp _ _ _ _ _ _ _) fun _ => ?_
    have h1 : ∀ x v u w, KP (F.jmp x v u w) := h.jmp
    cases w <;> cases u <;> cases a <;> cases b <;> dsimp only <;>
      repeat' (first | (with_reducible exact h1 _ _ _ _) | (with_reducible exact KP.pure _) | (with_reducible exact KP.throw _) | (with_reducible exact KP.lift _) | (with_reducible exact KP.need _) | (refine KP.bind ?_ fun _ => ?_))
  vjp x v u w := by
    simp only [SkipConnection.mod, SkipConnection.vjp]
    refine KP.bind (KP.lift _) fun _ => KP.bind (KP.lift _) fun _ => KP.bind (KP.lift _) fun _ => KP.bind (KP.lift _) fun _ =>
      KP.bind (h.vjp _ _ _ _) fun _ => ?_
    cases w <;> keeps
  mjp x v u w := by
    simp only [SkipConnection.mod, SkipConnection.mjp]
    cases u with
    | none => exact kp_skipJacobian h _ x v w
    | some u =>
      refine KP.bind (KP.lift _) fun _ => KP.bind (KP.lift _) fun _ => KP.bind (KP.lift _) fun _ => KP.bind (KP.lift _) fun _ =>
        KP.bind (h.mjp _ _ _ _) fun _ => ?_
      cases w <;> keeps
  jTmjp x v u w a b c := by
    simp only [SkipConnection.mod, SkipConnection.jTmjp]
    refine KP.bind (KP.assert _) fun _ => KP.bind (kp_skipGetVal h _ _) fun _ => KP.bind (KP.lift _) fun _ =>
      KP.bind (KP.lift _) fun _ => KP.bind (KP.lift _) fun _ => KP.bind (KP.lift _) fun _ => KP.bind (h.jTmjp _ _ _ _ _ _ _) fun _ => ?_
    have h1 : ∀ x v u w, KP (F.mjp x v u w) := h.mjp
    cases w with
    | input =>
      refine KP.bind (KP.lift _) fun _ => ?_
      split
      · keeps
      · keeps
      · refine KP.bind (KP.lift _) fun _ => KP.bind (KP.lift _) fun _ => KP.bind (h1 _ _ _ _) fun _ => KP.bind (KP.need _) fun _ =>
          KP.bind (KP.lift _) fun _ => KP.bind (KP.lift _) fun _ => KP.bind (h1 _ _ _ _) fun _ => by keeps
    | weight => keeps
    | other => keeps

end

/-! ### networks -/

mutual
theorem Net.tame : {s s' : List Nat} → {n k p : Nat} → (N : Net s n s' k p) → Tame N.mod
  | _, _, _, _, _, .linear _ _ _ _ _ _ _ => by simp only [Net.mod]; exact tame_pure _ _ _ _
  | _, _, _, _, _, .act _ _ _ _ _ _ => by simp only [Net.mod]; exact tame_pure _ _ _ _
  | _, _, _, _, _, .flatten _ _ _ _ _ => by simp only [Net.mod]; exact tame_pure _ _ _ _
  | _, _, _, _, _, .reshape _ _ _ _ _ _ _ _ _ => by simp only [Net.mod]; exact tame_pure _ _ _ _
  | _, _, _, _, _, .l2norm _ _ _ _ _ _ _ => by simp only [Net.mod]; exact tame_pure _ _ _ _
  | _, _, _, _, _, .conv _ _ _ _ => by simp only [Net.mod]; exact tame_pure _ _ _ _
  | _, _, _, _, _, .upsample _ _ _ _ _ _ _ _ _ => by simp only [Net.mod]; exact tame_pure _ _ _ _
  | _, _, _, _, _, .maxpool _ _ => by simp only [Net.mod]; exact tame_pool _ _
  | _, _, _, _, _, .seq id c => by simp only [Net.mod]; exact tame_seq c.tame id
  | _, _, _, _, _, .skip id fid ch => by simp only [Net.mod]; exact tame_skip (tame_seq ch.tame fid) id
theorem Chain.tame : {s s' : List Nat} → {n k p l : Nat} → (c : Chain s n s' k p l) → ∀ m ∈ c.mods, Tame m
  | _, _, _, _, _, _, .nil _ _ _ _ => by simp only [Chain.mods]; simp
  | _, _, _, _, _, _, .snoc c m => by
    simp only [Chain.mods, List.mem_append, List.mem_singleton]
    rintro m' (h | rfl)
    · exact c.tame m' h
    · exact m.tame
end

theorem kp_setWeight (m : Mod ℝ) (v : Tensor ℝ) : KP (m.setWeight v) := by
  have : ∀ is p, KP (setWeightLoop v is p) := by
    intro is
    induction is with
    | nil => exact fun _ => KP.pure' _
    | cons i is ih =>
      intro p s
      simp only [setWeightLoop]
      split
      · refine Keeps.trans ?_ (ih _ _)
        refine ⟨fun j => ?_, rfl, fun _ h => h⟩
        by_cases hj : j = i
        · subst hj; simp
        · simp [hj]
      · exact .refl
  exact this _ _

theorem Event.keeps {m : Mod ℝ} (hm : Tame m) (st : Store ℝ) (e : Event) : Keeps st (e.after m st) := by
  cases e with
  | call x => exact hm.call x st
  | setWeight v => exact kp_setWeight m v st
  | method x val c =>
    cases c with
    | forward => exact (KP.bind (hm.forward _) fun _ => KP.pure _) st
    | jacobian w => exact (KP.bind (hm.jacobian _ _ _) fun _ => KP.pure _) st
    | vjp v w => exact (KP.bind (hm.vjp _ _ _ _) fun _ => KP.pure _) st
    | mjp v w => exact (KP.bind (hm.mjp _ _ _ _) fun _ => KP.pure _) st
    | jvp v w => exact (KP.bind (hm.jvp _ _ _ _) fun _ => KP.pure _) st
    | jmp v w => exact (KP.bind (hm.jmp _ _ _ _) fun _ => KP.pure _) st
    | jTmjp v w => exact hm.jTmjp _ _ _ _ _ _ _ st
    | jmjTp v w => exact (KP.bind (hm.jmjTp _ _ _ _ _ _ _) fun _ => KP.pure _) st

theorem runHistory_keeps (h : List (AnyNet × Event)) (st : Store ℝ) : Keeps st (runHistory h st) := by
  induction h generalizing st with
  | nil => exact .refl
  | cons a h ih => exact (Event.keeps a.1.net.tame st a.2).trans (ih _)

mutual
theorem Net.Wired.keeps : {s s' : List Nat} → {n k p : Nat} → (N : Net s n s' k p) → {st st' : Store ℝ} → Keeps st st' → N.Wired st → N.Wired st'
  | _, _, _, _, _, .linear _ _ _ _ _ _ _, _, _, hk, h => by
    simp only [Net.Wired] at *
    exact ⟨by rw [hk.param]; exact h.1, fun b hb => by rw [hk.param]; exact h.2 b hb⟩
  | _, _, _, _, _, .act _ _ _ _ _ _, _, _, _, _ => by simp only [Net.Wired]
  | _, _, _, _, _, .flatten _ _ _ _ _, _, _, _, _ => by simp only [Net.Wired]
  | _, _, _, _, _, .reshape _ _ _ _ _ _ _ _ _, _, _, _, _ => by simp only [Net.Wired]
  | _, _, _, _, _, .l2norm _ _ _ _ _ _ _, _, _, _, _ => by simp only [Net.Wired]
  | _, _, _, _, _, .conv _ _ _ _, _, _, hk, h => by
    simp only [Net.Wired] at *
    exact ⟨by rw [hk.param]; exact h.1, fun b hb => by rw [hk.param]; exact h.2 b hb⟩
  | _, _, _, _, _, .upsample _ _ _ _ _ _ _ _ _, _, _, _, _ => by simp only [Net.Wired]
  | _, _, _, _, _, .maxpool _ _, _, _, _, _ => by simp only [Net.Wired]
  | _, _, _, _, _, .seq id c, _, _, hk, h => by
    simp only [Net.Wired] at *
    exact ⟨hk.some _ h.1, Chain.Wired.keeps c id hk h.2⟩
  | _, _, _, _, _, .skip _ fid ch, _, _, hk, h => by
    simp only [Net.Wired] at *
    exact ⟨hk.some _ h.1, by rw [hk.hooks]; exact h.2.1, Chain.Wired.keeps ch fid hk h.2.2⟩
theorem Chain.Wired.keeps : {s s' : List Nat} → {n k p l : Nat} → (c : Chain s n s' k p l) → (q : Nat) → {st st' : Store ℝ} → Keeps st st' →
    c.Wired q st → c.Wired q st'
  | _, _, _, _, _, _, .nil _ _ _ _, _, _, _, _, _ => by simp only [Chain.Wired]
  | _, _, _, _, _, _, .snoc c m, q, _, _, hk, h => by
    simp only [Chain.Wired] at *
    exact ⟨Chain.Wired.keeps c q hk h.1, Net.Wired.keeps m hk h.2.1, by rw [hk.hooks]; exact h.2.2⟩
end

theorem Net.Ok.keeps {s s' : List Nat} {n k p : Nat} {N : Net s n s' k p} {st st' : Store ℝ} (h : N.Ok st) (hk : Keeps st st') : N.Ok st' :=
  ⟨h.nodup, Net.Wired.keeps N hk h.wired⟩

end NNJ
