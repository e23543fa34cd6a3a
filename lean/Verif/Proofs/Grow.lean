import Verif.Proofs.Tame
import Verif.Proofs.NetGood
import Verif.Spec.Slice

/-! Outside of its own Sequentials and MaxPool2d layers, a network only appends to `feature_maps` -/

namespace NNJ
open Tensor

/-- parameters and hooks stay; lists of feature maps of objects other than `D` can only become longer; indices of pooling layers other than `D` stay -/
structure Grow (D : List Nat) (s s' : Store ℝ) : Prop where
  param : s'.param = s.param
  hooks : s'.hooks = s.hooks
  fmaps : ∀ i L, i ∉ D → s.fmaps i = some L → ∃ E, s'.fmaps i = some (L ++ E)
  pidx : ∀ i, i ∉ D → s'.pidx i = s.pidx i

namespace Grow

theorem refl {D : List Nat} {s : Store ℝ} : Grow D s s := ⟨rfl, rfl, fun _ _ _ h => ⟨[], by simpa using h⟩, fun _ _ => rfl⟩
theorem trans {D : List Nat} {s s' s'' : Store ℝ} (h : Grow D s s') (h' : Grow D s' s'') : Grow D s s'' where
  param := h'.param.trans h.param
  hooks := h'.hooks.trans h.hooks
  fmaps i L hi hL := by
    obtain ⟨E, hE⟩ := h.fmaps i L hi hL
    obtain ⟨E', hE'⟩ := h'.fmaps i _ hi hE
    exact ⟨E ++ E', by rw [hE', List.append_assoc]⟩
  pidx i hi := (h'.pidx i hi).trans (h.pidx i hi)

/-- every run of `p` only grows the feature maps outside `D` -/
def KP {β : Type} (D : List Nat) (p : Prog ℝ β) : Prop := ∀ s, Grow D s (p s).2

variable {D : List Nat}

namespace KP
variable {β γ : Type}
theorem pure (b : β) : KP D (Pure.pure b : Prog ℝ β) := fun _ => .refl
theorem pure' (b : β) : KP D (Prog.pure b : Prog ℝ β) := fun _ => .refl
theorem throw (e : Err) : KP D (Prog.throw e : Prog ℝ β) := fun _ => .refl
theorem lift (r : Res β) : KP D (liftM r : Prog ℝ β) := fun _ => .refl
theorem read (f : Store ℝ → β) : KP D (Prog.read f : Prog ℝ β) := fun _ => .refl
theorem assert (c : Bool) : KP D (Prog.assert c : Prog ℝ Unit) := by
  cases c
  · exact throw _
  · exact pure' _
theorem need (v : Option (Tensor ℝ)) : KP D (Prog.need v : Prog ℝ (Tensor ℝ)) := by
  cases v
  · exact throw _
  · exact pure' _
theorem same {p : Prog ℝ β} (h : ∀ s, (p s).2 = s) : KP D p := fun s => by rw [h s]; exact .refl
theorem bind {p : Prog ℝ β} {f : β → Prog ℝ γ} (hp : KP D p) (hf : ∀ b, KP D (f b)) : KP D (p >>= f) := by
  intro s
  have h1 := hp s
  rw [Prog.bind_run]
  rcases hps : p s with ⟨r, s'⟩
  rw [hps] at h1
  cases r with
  | ok b => exact h1.trans (hf b s')
  | error e => exact h1
end KP

/-- solves `Grow.KP` goals of do-blocks -/
macro "grows" : tactic => `(tactic| repeat' (first
  | assumption
  | apply KP.pure | apply KP.pure' | apply KP.throw | apply KP.lift | apply KP.read | apply KP.assert | apply KP.need
  | (refine KP.bind ?_ fun _ => ?_)
  | split))

theorem kp_runHook (v : Tensor ℝ) (i : Nat) : KP D (Mod.runHook v i) := by
  intro s
  simp only [Mod.runHook]
  split
  · rename_i l hl
    refine ⟨rfl, rfl, fun j L _ hj => ?_, fun _ _ => rfl⟩
    by_cases h : j = i
    · subst h
      rw [hl] at hj; cases hj
      exact ⟨[v], by simp⟩
    · exact ⟨[], by simp [h, hj]⟩
  · exact .refl

theorem kp_runHooks (v : Tensor ℝ) (is : List Nat) : KP D (Mod.runHooks v is) := by
  induction is with
  | nil => exact KP.pure' _
  | cons i is ih => exact KP.bind (kp_runHook v i) fun _ => ih

/-- every method does -/
structure Tame (D : List Nat) (m : Mod ℝ) : Prop where
  forward : ∀ x, KP D (m.forward x)
  jacobian : ∀ x v w, KP D (m.jacobian x v w)
  jvp : ∀ x v u w, KP D (m.jvp x v u w)
  jmp : ∀ x v u w, KP D (m.jmp x v u w)
  jmjTp : ∀ x v u w a b c, KP D (m.jmjTp x v u w a b c)
  vjp : ∀ x v u w, KP D (m.vjp x v u w)
  mjp : ∀ x v u w, KP D (m.mjp x v u w)
  jTmjp : ∀ x v u w a b c, KP D (m.jTmjp x v u w a b c)

theorem Tame.call {m : Mod ℝ} (h : Tame D m) (x : Tensor ℝ) : KP D (m.call x) :=
  KP.bind (h.forward x) fun _ => KP.bind (KP.read _) fun _ => KP.bind (kp_runHooks _ _) fun _ => KP.pure _

theorem tame_pure (L : Store ℝ → PureLayer ℝ) (id np : Nat) (ps : List Nat) : Tame D (PureLayer.toMod L id np ps) := by
  constructor <;> intros <;> exact KP.same fun _ => rfl

/-! ### MaxPool2d -/

section
open MaxPool2d

theorem kp_poolForward {id : Nat} (hD : id ∈ D) (a : Torch.PoolArgs) (x : Tensor ℝ) : KP D (MaxPool2d.forward id a x) := by
  refine KP.bind (KP.lift _) fun r => KP.bind ?_ fun _ => KP.pure _
  exact fun s => ⟨rfl, rfl, fun _ L _ h => ⟨[], by simpa using h⟩, fun i hi => by
    have : i ≠ id := fun e => hi (e ▸ hD)
    simp [this]⟩

theorem kp_poolVal {id : Nat} (hD : id ∈ D) (a : Torch.PoolArgs) (x : Tensor ℝ) (val : Option (Tensor ℝ)) : KP D (getVal id a x val) := by
  cases val with
  | none => exact kp_poolForward hD a x
  | some v => exact KP.pure' v

theorem kp_poolIdx (id : Nat) : KP D (getIdx id : Prog ℝ (Tensor Nat)) := by
  refine KP.same fun s => ?_
  simp only [getIdx]
  split <;> rfl

theorem kp_poolJmp {id : Nat} (hD : id ∈ D) (a : Torch.PoolArgs) (x : Tensor ℝ) (val : Option (Tensor ℝ)) (m : Tensor ℝ) (w : Wrt) : KP D (jmpSome id a x val m w) := by
  cases w with
  | input => exact KP.bind (kp_poolVal hD _ _ _) fun _ => KP.bind (kp_poolIdx _) fun _ => KP.bind (KP.lift _) fun _ => KP.pure _
  | weight => exact KP.pure _
  | other => exact KP.pure _

theorem kp_poolJac {id : Nat} (hD : id ∈ D) (a : Torch.PoolArgs) (x : Tensor ℝ) (val : Option (Tensor ℝ)) (w : Wrt) : KP D (MaxPool2d.jacobian id a x val w) := by
  cases w with
  | input =>
    exact KP.bind (kp_poolVal hD _ _ _) fun _ => KP.bind (KP.lift _) fun _ => KP.bind (KP.lift _) fun _ => KP.bind (KP.assert _) fun _ =>
      KP.bind (KP.lift _) fun _ => kp_poolJmp hD _ _ _ _ _
  | weight => exact KP.pure _
  | other => exact KP.pure _

theorem tame_pool (a : Torch.PoolArgs) {id : Nat} (hD : id ∈ D) : Tame D (MaxPool2d.mod a id) where
  forward := kp_poolForward hD a
  jacobian := kp_poolJac hD a
  jvp x v u w := by
    show KP D (MaxPool2d.jvp x v u w)
    cases w with
    | input => exact KP.throw _
    | weight => exact KP.pure _
    | other => exact KP.pure _
  jmp x v u w := by
    show KP D (MaxPool2d.jmp id a x v u w)
    cases u with
    | none => exact kp_poolJac hD _ _ _ _
    | some m => exact kp_poolJmp hD _ _ _ _ _
  jmjTp x v u w fd td db := by
    show KP D (MaxPool2d.jmjTp id a x v u w fd td db)
    refine KP.bind (kp_poolVal hD _ _ _) fun _ => ?_
    cases w with
    | input => exact KP.throw _
    | weight => exact KP.pure _
    | other => exact KP.pure _
  vjp x v u w := by
    show KP D (MaxPool2d.vjp id a x v u w)
    cases w with
    | input => exact KP.bind (kp_poolVal hD _ _ _) fun _ => KP.bind (kp_poolIdx _) fun _ => KP.bind (KP.lift _) fun _ => KP.pure _
    | weight => exact KP.pure _
    | other => exact KP.pure _
  mjp x v u w := by
    show KP D (MaxPool2d.mjp id a x v u w)
    cases u with
    | none => exact kp_poolJac hD _ _ _ _
    | some m =>
      cases w with
      | input => exact KP.bind (kp_poolVal hD _ _ _) fun _ => KP.bind (kp_poolIdx _) fun _ => KP.bind (KP.lift _) fun _ => KP.pure _
      | weight => exact KP.pure _
      | other => exact KP.pure _
  jTmjp x v u w fd td db := by
    show KP D (MaxPool2d.jTmjp id a x v u w fd td db)
    refine KP.bind (kp_poolVal hD _ _ _) fun _ => KP.bind (KP.lift _) fun _ => KP.bind (KP.lift _) fun _ => KP.bind (KP.assert _) fun _ =>
      KP.bind (KP.lift _) fun _ => ?_
    have h0 := kp_poolIdx (D := D) id
    have h : ∀ f : Tensor Nat → Prog ℝ (PyVal ℝ), (∀ i, KP D (f i)) → KP D (getIdx id >>= f) := fun f hf => KP.bind (kp_poolIdx _) hf
    cases w with
    | input =>
      split
      dsimp only
      split
      · exact KP.bind (KP.assert _) fun _ => h _ fun _ => KP.bind (KP.lift _) fun _ => KP.pure _
      · exact KP.bind (KP.assert _) fun _ => h _ fun _ => KP.bind (KP.lift _) fun _ => KP.pure _
    | weight => grows
    | other => grows

end

/-! ### Sequential -/

section
variable {ms : List (Mod ℝ)}

theorem kp_fmap (id k : Nat) : KP D (Sequential.fmap id k : Prog ℝ (Tensor ℝ)) := by
  refine KP.same fun s => ?_
  simp only [Sequential.fmap]
  split
  · rfl
  · split <;> rfl

theorem kp_child (ms : List (Mod ℝ)) (hms : ∀ m ∈ ms, Tame D m) (k : Nat) {β : Type} {f : Mod ℝ → Prog ℝ β}
    (hf : ∀ m, Tame D m → KP D (f m)) : KP D (Sequential.child ms k >>= f) := by
  intro s
  rw [Prog.bind_run]
  simp only [Sequential.child]
  cases h : ms[k]? with
  | none => exact .refl
  | some m => exact hf m (hms m (List.mem_of_getElem? h)) s

theorem kp_listGet (vs : List (PyVal ℝ)) (k : Nat) : KP D (Sequential.listGet vs k) := by
  refine KP.same fun s => ?_
  simp only [Sequential.listGet]
  split <;> rfl

theorem kp_run (h : ∀ m ∈ ms, Tame D m) (x : Tensor ℝ) : KP D (Sequential.run ms x) := by
  induction ms generalizing x with
  | nil => exact KP.pure _
  | cons m ms ih => exact KP.bind ((h m (by simp)).call x) fun _ => ih (fun m hm => h m (by simp [hm])) _

theorem kp_seqForward (h : ∀ m ∈ ms, Tame D m) {id : Nat} (hD : id ∈ D) (x : Tensor ℝ) : KP D (Sequential.forward id true ms x) := by
  intro s
  simp only [Sequential.forward, if_true]
  refine Grow.trans (s' := { s with fmaps := fun j => if j = id then some [x] else s.fmaps j }) ?_ (kp_run h x _)
  refine ⟨rfl, rfl, fun j L hj hL => ⟨[], ?_⟩, fun _ _ => rfl⟩
  have : j ≠ id := fun e => hj (e ▸ hD)
  simpa [this] using hL

theorem kp_getVal (h : ∀ m ∈ ms, Tame D m) {id : Nat} (hD : id ∈ D) (x : Tensor ℝ) (val : Option (Tensor ℝ)) : KP D (Sequential.getVal id true ms x val) := by
  cases val with
  | none => exact kp_seqForward h hD x
  | some v => exact KP.pure _

theorem kp_jvpInput (h : ∀ m ∈ ms, Tame D m) (x v : Tensor ℝ) : KP D (Sequential.jvpInput ms x v) := by
  induction ms generalizing x v with
  | nil => exact KP.pure _
  | cons m ms ih =>
    have hm := h m (by simp)
    simp only [Sequential.jvpInput]
    exact KP.bind (hm.call x) fun _ => KP.bind (hm.jvp _ _ _ _) fun _ => KP.bind (KP.need _) fun _ => ih (fun m hm => h m (by simp [hm])) _ _

theorem kp_through (acc : Option (Tensor ℝ)) (f : Tensor ℝ → Prog ℝ (Option (Tensor ℝ))) (h : ∀ a, KP D (f a)) :
    KP D (Sequential.through acc f) := by
  cases acc with
  | none => exact KP.pure _
  | some a => exact h a

theorem kp_jvpWeight (h : ∀ m ∈ ms, Tame D m) (u x : Tensor ℝ) (p : Nat) (acc : Option (Tensor ℝ)) : KP D (Sequential.jvpWeight u ms x p acc) := by
  induction ms generalizing x p acc with
  | nil => exact KP.pure _
  | cons m ms ih =>
    have hm := h m (by simp)
    simp only [Sequential.jvpWeight]
    exact KP.bind (hm.call x) fun _ => KP.bind (kp_through _ _ fun _ => hm.jvp _ _ _ _) fun _ => KP.bind (KP.lift _) fun _ =>
      KP.bind (hm.jvp _ _ _ _) fun _ => KP.bind (KP.lift _) fun _ => ih (fun m hm => h m (by simp [hm])) _ _ _

theorem kp_jmpInput (h : ∀ m ∈ ms, Tame D m) (x v : Tensor ℝ) : KP D (Sequential.jmpInput ms x v) := by
  induction ms generalizing x v with
  | nil => exact KP.pure _
  | cons m ms ih =>
    have hm := h m (by simp)
    simp only [Sequential.jmpInput]
    exact KP.bind (hm.call x) fun _ => KP.bind (hm.jmp _ _ _ _) fun _ => KP.bind (KP.need _) fun _ => ih (fun m hm => h m (by simp [hm])) _ _

theorem kp_jmpWeight (h : ∀ m ∈ ms, Tame D m) (u x : Tensor ℝ) (p : Nat) (acc : Option (Tensor ℝ)) : KP D (Sequential.jmpWeight u ms x p acc) := by
  induction ms generalizing x p acc with
  | nil => exact KP.pure _
  | cons m ms ih =>
    have hm := h m (by simp)
    simp only [Sequential.jmpWeight]
    exact KP.bind (hm.call x) fun _ => KP.bind (kp_through _ _ fun _ => hm.jmp _ _ _ _) fun _ => KP.bind (KP.lift _) fun _ =>
      KP.bind (hm.jmp _ _ _ _) fun _ => KP.bind (KP.lift _) fun _ => ih (fun m hm => h m (by simp [hm])) _ _ _

theorem kp_vjpInput (h : ∀ m ∈ ms, Tame D m) (id k : Nat) (v : Tensor ℝ) : KP D (Sequential.vjpInput id ms k v) := by
  induction k generalizing v with
  | zero => exact KP.pure _
  | succ k ih =>
    simp only [Sequential.vjpInput]
    exact kp_child ms h k fun m hm => KP.bind (kp_fmap _ _) fun _ => KP.bind (kp_fmap _ _) fun _ => KP.bind (hm.vjp _ _ _ _) fun _ =>
      KP.bind (KP.need _) fun _ => ih _

theorem kp_vjpWeight (h : ∀ m ∈ ms, Tame D m) (id k : Nat) (v : Tensor ℝ) (vs : List (Tensor ℝ)) : KP D (Sequential.vjpWeight id ms k v vs) := by
  induction k generalizing v vs with
  | zero => exact KP.pure _
  | succ k ih =>
    simp only [Sequential.vjpWeight]
    refine kp_child ms h k fun m hm => KP.bind (kp_fmap _ _) fun _ => KP.bind (kp_fmap _ _) fun _ => KP.bind (hm.vjp _ _ _ _) fun _ => ?_
    split
    · exact KP.pure _
    · exact KP.bind (hm.vjp _ _ _ _) fun _ => KP.bind (KP.need _) fun _ => ih _ _

theorem kp_mjpInput (h : ∀ m ∈ ms, Tame D m) (id k : Nat) (v : Tensor ℝ) : KP D (Sequential.mjpInput id ms k v) := by
  induction k generalizing v with
  | zero => exact KP.pure _
  | succ k ih =>
    simp only [Sequential.mjpInput]
    exact kp_child ms h k fun m hm => KP.bind (kp_fmap _ _) fun _ => KP.bind (kp_fmap _ _) fun _ => KP.bind (hm.mjp _ _ _ _) fun _ =>
      KP.bind (KP.need _) fun _ => ih _

theorem kp_mjpWeight (h : ∀ m ∈ ms, Tame D m) (id k : Nat) (v : Tensor ℝ) (vs : List (Tensor ℝ)) : KP D (Sequential.mjpWeight id ms k v vs) := by
  induction k generalizing v vs with
  | zero => exact KP.pure _
  | succ k ih =>
    simp only [Sequential.mjpWeight]
    refine kp_child ms h k fun m hm => KP.bind (kp_fmap _ _) fun _ => KP.bind (kp_fmap _ _) fun _ => KP.bind (hm.mjp _ _ _ _) fun _ => ?_
    split
    · exact KP.pure _
    · exact KP.bind (hm.mjp _ _ _ _) fun _ => KP.bind (KP.need _) fun _ => ih _ _

theorem kp_jTmjpInput (h : ∀ m ∈ ms, Tame D m) (id n : Nat) (a b c : Bool) (k : Nat) (v : Option (Tensor ℝ)) :
    KP D (Sequential.jTmjpInput id n ms a b c k v) := by
  induction k generalizing v with
  | zero => exact KP.pure _
  | succ k ih =>
    simp only [Sequential.jTmjpInput]
    exact kp_child ms h k fun m hm => KP.bind (kp_fmap _ _) fun _ => KP.bind (kp_fmap _ _) fun _ => KP.bind (hm.jTmjp _ _ _ _ _ _ _) fun _ =>
      KP.bind (KP.lift _) fun _ => ih _

theorem kp_jTmjpWeight (h : ∀ m ∈ ms, Tame D m) (id n : Nat) (a b c : Bool) (k : Nat) (v : Option (Tensor ℝ)) (vs : List (PyVal ℝ)) :
    KP D (Sequential.jTmjpWeight id n ms a b c k v vs) := by
  induction k generalizing v vs with
  | zero => exact KP.pure _
  | succ k ih =>
    simp only [Sequential.jTmjpWeight]
    refine kp_child ms h k fun m hm => KP.bind (kp_fmap _ _) fun _ => KP.bind (kp_fmap _ _) fun _ => KP.bind (hm.jTmjp _ _ _ _ _ _ _) fun _ => ?_
    split
    · exact KP.pure _
    · exact KP.bind (hm.jTmjp _ _ _ _ _ _ _) fun _ => KP.bind (KP.lift _) fun _ => ih _ _

theorem kp_jmjTpInput (h : ∀ m ∈ ms, Tame D m) (id n : Nat) (a b c : Bool) (k : Nat) (v : PyVal ℝ) :
    KP D (Sequential.jmjTpInput id n a b c ms k v) := by
  induction ms generalizing k v with
  | nil => exact KP.pure _
  | cons m ms ih =>
    have hm := h m (by simp)
    simp only [Sequential.jmjTpInput]
    exact KP.bind (kp_fmap _ _) fun _ => KP.bind (kp_fmap _ _) fun _ => KP.bind (hm.jmjTp _ _ _ _ _ _ _) fun _ =>
      ih (fun m hm => h m (by simp [hm])) _ _

theorem kp_jmjTpWeight (h : ∀ m ∈ ms, Tame D m) (id n : Nat) (a b c : Bool) (bl : List (PyVal ℝ)) (k kp : Nat) (acc : Option (Tensor ℝ)) :
    KP D (Sequential.jmjTpWeight id n a b c bl ms k kp acc) := by
  induction ms generalizing k kp acc with
  | nil => exact KP.pure _
  | cons m ms ih =>
    have hm := h m (by simp)
    have ih' := ih (fun m hm => h m (by simp [hm]))
    simp only [Sequential.jmjTpWeight]
    refine KP.bind (kp_through _ _ fun _ => KP.bind (kp_fmap _ _) fun _ => KP.bind (kp_fmap _ _) fun _ => hm.jmjTp _ _ _ _ _ _ _) fun _ => ?_
    split
    · exact ih' _ _ _
    · exact KP.bind (kp_fmap _ _) fun _ => KP.bind (kp_fmap _ _) fun _ => KP.bind (kp_listGet _ _) fun _ =>
        KP.bind (hm.jmjTp _ _ _ _ _ _ _) fun _ => KP.bind (KP.lift _) fun _ => ih' _ _ _

theorem kp_seqMjp (h : ∀ m ∈ ms, Tame D m) {id : Nat} (hD : id ∈ D) (x : Tensor ℝ) (val M : Option (Tensor ℝ)) (w : Wrt) : KP D (Sequential.mjp id true ms x val M w) := by
  have h1 := @kp_mjpInput D ms h
  have h2 := @kp_mjpWeight D ms h
  simp only [Sequential.mjp]
  refine KP.bind (KP.assert _) fun _ => KP.bind (kp_getVal h hD _ _) fun _ => KP.bind (KP.lift _) fun _ => ?_
  split
  · exact KP.bind (h1 _ _ _) fun _ => KP.pure _
  · exact KP.bind (h2 _ _ _ _) fun _ => KP.lift _
  · exact KP.pure _

theorem tame_seq (h : ∀ m ∈ ms, Tame D m) {id : Nat} (hD : id ∈ D) : Tame D (Sequential.mod id true ms) where
  forward x := kp_seqForward h hD x
  jacobian x v w := kp_seqMjp h hD x v none w
  jvp x v u w := by
    simp only [Sequential.mod, Sequential.jvp]
    refine KP.bind (KP.assert _) fun _ => ?_
    cases w with
    | input => exact KP.bind (kp_jvpInput h _ _) fun _ => KP.pure _
    | weight => exact KP.bind (kp_jvpWeight h _ _ _ _) fun _ => KP.bind (KP.assert _) fun _ => KP.pure _
    | other => exact KP.pure _
  jmp x v u w := by
    simp only [Sequential.mod, Sequential.jmp]
    refine KP.bind (KP.assert _) fun _ => ?_
    cases u with
    | none => exact kp_seqMjp h hD x v none w
    | some u =>
      cases w with
      | input => exact KP.bind (kp_jmpInput h _ _) fun _ => KP.pure _
      | weight => exact KP.bind (kp_jmpWeight h _ _ _ _) fun _ => KP.bind (KP.assert _) fun _ => KP.pure _
      | other => exact KP.pure _
  jmjTp x v u w a b c := by
    simp only [Sequential.mod, Sequential.jmjTp]
    refine KP.bind (KP.assert _) fun _ => KP.bind (kp_getVal h hD _ _) fun _ => ?_
    cases w with
    | input => exact KP.bind (kp_jmjTpInput h _ _ _ _ _ _ _) fun _ => KP.lift _
    | weight =>
      have hW := @kp_jmjTpWeight D ms h
      refine KP.bind (KP.lift _) fun _ => ?_
      split
      · exact KP.bind (KP.pure _) fun _ => hW _ _ _ _ _ _ _ _ _
      · exact KP.bind (KP.lift _) fun _ => KP.bind (KP.assert _) fun _ => KP.bind (KP.pure _) fun _ => hW _ _ _ _ _ _ _ _ _
      · exact KP.bind (KP.throw _) fun _ => hW _ _ _ _ _ _ _ _ _
    | other => exact KP.pure _
  vjp x v u w := by
    simp only [Sequential.mod, Sequential.vjp]
    refine KP.bind (KP.assert _) fun _ => KP.bind (kp_getVal h hD _ _) fun _ => ?_
    cases w with
    | input => exact KP.bind (kp_vjpInput h _ _ _) fun _ => KP.pure _
    | weight => exact KP.bind (kp_vjpWeight h _ _ _ _) fun _ => KP.lift _
    | other => exact KP.pure _
  mjp x v u w := kp_seqMjp h hD x v u w
  jTmjp x v u w a b c := by
    simp only [Sequential.mod, Sequential.jTmjp]
    refine KP.bind (KP.assert _) fun _ => KP.bind (kp_getVal h hD _ _) fun _ => KP.bind (KP.lift _) fun _ => ?_
    cases w with
    | input => exact KP.bind (kp_jTmjpInput h _ _ _ _ _ _ _) fun _ => KP.pure _
    | weight =>
      refine KP.bind (kp_jTmjpWeight h _ _ _ _ _ _ _ _) fun _ => ?_
      split
      · exact KP.pure _
      · split
        · exact KP.bind (KP.lift _) fun _ => KP.bind (KP.lift _) fun _ => KP.pure _
        · exact KP.pure _
    | other => exact KP.bind (kp_jTmjpInput h _ _ _ _ _ _ _) fun _ => KP.pure _

end

/-! ### SkipConnection -/

section
variable {F : Mod ℝ}

theorem kp_skipForward (h : Tame D F) (x : Tensor ℝ) : KP D (SkipConnection.forward F x) :=
  KP.bind (h.call x) fun _ => KP.lift _

theorem kp_skipGetVal (h : Tame D F) (x : Tensor ℝ) (val : Option (Tensor ℝ)) : KP D (SkipConnection.getVal F x val) := by
  cases val with
  | none => exact kp_skipForward h x
  | some v => exact KP.pure _

theorem kp_skipJacobian (h : Tame D F) (np : Nat) (x : Tensor ℝ) (val : Option (Tensor ℝ)) (w : Wrt) : KP D (SkipConnection.jacobian F np x val w) := by
  have h1 := h.jacobian
  have h2 := @kp_skipGetVal D F h
  simp only [SkipConnection.jacobian]
  refine KP.bind (h1 _ _ _) fun _ => KP.bind (KP.lift _) fun _ => KP.bind (KP.lift _) fun _ => KP.bind (h2 _ _) fun _ => ?_
  cases w <;> grows

theorem tame_skip (h : Tame D F) (id : Nat) : Tame D (SkipConnection.mod id F) where
  forward x := kp_skipForward h x
  jacobian x v w := kp_skipJacobian h _ x v w
  jvp x v u w := by
    simp only [SkipConnection.mod, SkipConnection.jvp]
    refine KP.bind (KP.lift _) fun _ => KP.bind (KP.lift _) fun _ => KP.bind (KP.lift _) fun _ => KP.bind (h.jvp _ _ _ _) fun _ => ?_
    cases w <;> grows
  jmp x v u w := by
    simp only [SkipConnection.mod, SkipConnection.jmp]
    cases u with
    | none => exact kp_skipJacobian h _ x v w
    | some u =>
      refine KP.bind (KP.lift _) fun _ => KP.bind (KP.lift _) fun _ => KP.bind (KP.lift _) fun _ => KP.bind (h.jmp _ _ _ _) fun _ => ?_
      cases w <;> grows
  jmjTp x v u w a b c := by
    simp only [SkipConnection.mod, SkipConnection.jmjTp]
    refine KP.bind (KP.assert _) fun _ => KP.bind (kp_skipGetVal h _ _) fun _ => KP.bind (KP.lift _) fun _ => KP.bind (KP.lift _) fun _ =>
      KP.bind (KP.lift _) fun _ => KP.bind (KP.lift _) fun _ => KP.bind (h.jmjTp _ _ _ _ _ _ _) fun _ => ?_
    have h1 : ∀ x v u w, KP D (F.jmp x v u w) := h.jmp
    cases w <;> cases u <;> cases a <;> cases b <;> dsimp only <;>
      repeat' (first | (with_reducible exact h1 _ _ _ _) | (with_reducible exact KP.pure _) | (with_reducible exact KP.throw _) | (with_reducible exact KP.lift _) | (with_reducible exact KP.need _) | (refine KP.bind ?_ fun _ => ?_))
  vjp x v u w := by
    simp only [SkipConnection.mod, SkipConnection.vjp]
    refine KP.bind (KP.lift _) fun _ => KP.bind (KP.lift _) fun _ => KP.bind (KP.lift _) fun _ => KP.bind (KP.lift _) fun _ =>
      KP.bind (h.vjp _ _ _ _) fun _ => ?_
    cases w <;> grows
  mjp x v u w := by
    simp only [SkipConnection.mod, SkipConnection.mjp]
    cases u with
    | none => exact kp_skipJacobian h _ x v w
    | some u =>
      refine KP.bind (KP.lift _) fun _ => KP.bind (KP.lift _) fun _ => KP.bind (KP.lift _) fun _ => KP.bind (KP.lift _) fun _ =>
        KP.bind (h.mjp _ _ _ _) fun _ => ?_
      cases w <;> grows
  jTmjp x v u w a b c := by
    simp only [SkipConnection.mod, SkipConnection.jTmjp]
    refine KP.bind (KP.assert _) fun _ => KP.bind (kp_skipGetVal h _ _) fun _ => KP.bind (KP.lift _) fun _ =>
      KP.bind (KP.lift _) fun _ => KP.bind (KP.lift _) fun _ => KP.bind (KP.lift _) fun _ => KP.bind (h.jTmjp _ _ _ _ _ _ _) fun _ => ?_
    have h1 : ∀ x v u w, KP D (F.mjp x v u w) := h.mjp
    cases w with
    | input =>
      refine KP.bind (KP.lift _) fun _ => ?_
      split
      · grows
      · grows
      · refine KP.bind (KP.lift _) fun _ => KP.bind (KP.lift _) fun _ => KP.bind (h1 _ _ _ _) fun _ => KP.bind (KP.need _) fun _ =>
          KP.bind (KP.lift _) fun _ => KP.bind (KP.lift _) fun _ => KP.bind (h1 _ _ _ _) fun _ => by grows
    | weight => grows
    | other => grows

end

/-! ### networks -/

mutual
theorem net : {s s' : List Nat} → {n k p : Nat} → (N : Net s n s' k p) → (∀ i ∈ N.stateful, i ∈ D) → Tame D N.mod
  | _, _, _, _, _, .linear _ _ _ _ _ _ _, _ => by simp only [Net.mod]; exact tame_pure _ _ _ _
  | _, _, _, _, _, .act _ _ _ _ _ _, _ => by simp only [Net.mod]; exact tame_pure _ _ _ _
  | _, _, _, _, _, .flatten _ _ _ _ _, _ => by simp only [Net.mod]; exact tame_pure _ _ _ _
  | _, _, _, _, _, .reshape _ _ _ _ _ _ _ _ _, _ => by simp only [Net.mod]; exact tame_pure _ _ _ _
  | _, _, _, _, _, .l2norm _ _ _ _ _ _ _, _ => by simp only [Net.mod]; exact tame_pure _ _ _ _
  | _, _, _, _, _, .conv _ _ _ _, _ => by simp only [Net.mod]; exact tame_pure _ _ _ _
  | _, _, _, _, _, .upsample _ _ _ _ _ _ _ _ _, _ => by simp only [Net.mod]; exact tame_pure _ _ _ _
  | _, _, _, _, _, .maxpool _ _, h => by simp only [Net.mod]; exact tame_pool _ (h _ (by simp [Net.stateful]))
  | _, _, _, _, _, .seq id c, h => by
    simp only [Net.mod]; simp only [Net.stateful, List.mem_cons, forall_eq_or_imp] at h
    exact tame_seq (chain c h.2) h.1
  | _, _, _, _, _, .skip id fid ch, h => by
    simp only [Net.mod]; simp only [Net.stateful, List.mem_cons, forall_eq_or_imp] at h
    exact tame_skip (tame_seq (chain ch h.2) h.1) id
theorem chain : {s s' : List Nat} → {n k p l : Nat} → (c : Chain s n s' k p l) → (∀ i ∈ c.stateful, i ∈ D) → ∀ m ∈ c.mods, Tame D m
  | _, _, _, _, _, _, .nil _ _ _ _, _ => by simp only [Chain.mods]; simp
  | _, _, _, _, _, _, .snoc c m, h => by
    simp only [Chain.stateful, List.mem_append] at h
    simp only [Chain.mods, List.mem_append, List.mem_singleton]
    rintro m' (hm | rfl)
    · exact chain c (fun i hi => h i (Or.inl hi)) m' hm
    · exact net m fun i hi => h i (Or.inr hi)
end

theorem event {m : Mod ℝ} (hm : Tame D m) (st : Store ℝ) (e : Event) (he : e.KeepsWeights) : Grow D st (e.after m st) := by
  cases e with
  | call x => exact hm.call x st
  | setWeight v => exact he.elim
  | method x val c =>
    cases c with
    | forward => exact (KP.bind (hm.forward _) fun _ => KP.pure _) st
    | jacobian w => exact (KP.bind (hm.jacobian _ _ _) fun _ => KP.pure _) st
    | vjp v w => exact (KP.bind (hm.vjp _ _ _ _) fun _ => KP.pure _) st
    | mjp v w => exact (KP.bind (hm.mjp _ _ _ _) fun _ => KP.pure _) st
    | jvp v w => exact (KP.bind (hm.jvp _ _ _ _) fun _ => KP.pure _) st
    | jmp v w => exact (KP.bind (hm.jmp _ _ _ _) fun _ => KP.pure _) st
    | jTmjp v w => exact hm.jTmjp _ _ _ _ _ _ _ st
    | jmjTp v w => exact (KP.bind (hm.jmjTp _ _ _ _ _ _ _) fun _ => KP.pure _) st

theorem mono {D D' : List Nat} {s s' : Store ℝ} (h : Grow D s s') (hD : ∀ i ∈ D, i ∈ D') : Grow D' s s' :=
  ⟨h.param, h.hooks, fun i L hi => h.fmaps i L fun hh => hi (hD i hh), fun i hi => h.pidx i fun hh => hi (hD i hh)⟩

/-- what a history leaves alone, seen from objects `K` -/
structure On (K : List Nat) (s s' : Store ℝ) : Prop where
  param : s'.param = s.param
  hooks : s'.hooks = s.hooks
  fmaps : ∀ i ∈ K, ∀ L, s.fmaps i = some L → ∃ E, s'.fmaps i = some (L ++ E)
  pidx : ∀ i ∈ K, s'.pidx i = s.pidx i

theorem history {K : List Nat} (hist : List (AnyNet × Event)) (h : ∀ e ∈ hist, e.2.KeepsWeights ∧ ∀ i ∈ e.1.net.stateful, i ∉ K) (st : Store ℝ) :
    On K st (runHistory hist st) := by
  induction hist generalizing st with
  | nil => exact ⟨rfl, rfl, fun _ _ _ h => ⟨[], by simpa [runHistory] using h⟩, fun _ _ => rfl⟩
  | cons a hist ih =>
    obtain ⟨h1, h2⟩ := h a (by simp)
    have g := event (net a.1.net (fun i hi => hi)) st a.2 h1
    have o := ih (fun e he => h e (by simp [he])) (a.2.after a.1.net.mod st)
    refine ⟨o.param.trans g.param, o.hooks.trans g.hooks, fun i hi L hL => ?_, fun i hi => (o.pidx i hi).trans (g.pidx i fun hh => h2 i hh hi)⟩
    obtain ⟨E, hE⟩ := g.fmaps i L (fun hh => h2 i hh hi) hL
    obtain ⟨E', hE'⟩ := o.fmaps i hi _ hE
    exact ⟨E ++ E', by rw [runHistory, hE', List.append_assoc]⟩

/-! ### the caches survive -/

mutual
theorem netW : {s s' : List Nat} → {n k p : Nat} → (N : Net s n s' k p) → {st st' : Store ℝ} → st'.param = st.param → N.w st' = N.w st
  | _, _, _, _, _, .linear _ _ _ _ _ _ _, _, _, h => by simp [Net.w, linearW, h]
  | _, _, _, _, _, .act _ _ _ _ _ _, _, _, _ => by simp [Net.w]
  | _, _, _, _, _, .flatten _ _ _ _ _, _, _, _ => by simp [Net.w]
  | _, _, _, _, _, .reshape _ _ _ _ _ _ _ _ _, _, _, _ => by simp [Net.w]
  | _, _, _, _, _, .l2norm _ _ _ _ _ _ _, _, _, _ => by simp [Net.w]
  | _, _, _, _, _, .conv _ _ _ _, _, _, h => by simp [Net.w, convW, h]
  | _, _, _, _, _, .upsample _ _ _ _ _ _ _ _ _, _, _, _ => by simp [Net.w]
  | _, _, _, _, _, .maxpool _ _, _, _, _ => by simp [Net.w]
  | _, _, _, _, _, .seq _ c, _, _, h => by simp only [Net.w]; exact chainW0 c h
  | _, _, _, _, _, .skip _ _ ch, _, _, h => by simp only [Net.w]; exact chainW0 ch h
theorem chainW0 : {s s' : List Nat} → {n k p l : Nat} → (c : Chain s n s' k p l) → {st st' : Store ℝ} → st'.param = st.param → c.w st' = c.w st
  | _, _, _, _, _, _, .nil _ _ _ _, _, _, _ => by simp [Chain.w]
  | _, _, _, _, _, _, .snoc c m, _, _, h => by simp only [Chain.w, chainW0 c h, netW m h]
end

theorem chainW {s s' : List Nat} {n k p l : Nat} (c : Chain s n s' k p l) {st st' : Store ℝ} (h : st'.param = st.param) : c.mchain.w st' = c.mchain.w st := by
  rw [c.mchain_w, chainW0 c h]

theorem seqCache {s s' : List Nat} {n k p l : Nat} {id : Nat} (c : Chain s n s' k p l) {st st' : Store ℝ} (o : On (id :: c.stateful) st st') {B : Nat} {X : Fin B → Fin n → ℝ}
    (h : (∃ L, st.fmaps id = some L ∧ MChain.listOk L c.mchain B X (c.mchain.w st)) ∧ c.mchain.kids B X st)
    (hk' : c.mchain.kids B X st') :
    (∃ L, st'.fmaps id = some L ∧ MChain.listOk L c.mchain B X (c.mchain.w st')) ∧ c.mchain.kids B X st' := by
  obtain ⟨⟨L, hL, hl⟩, hk⟩ := h
  obtain ⟨E, hE⟩ := o.fmaps id (by simp) L hL
  refine ⟨⟨L ++ E, hE, ?_⟩, hk'⟩
  rw [chainW c o.param]
  exact MChain.listOk_append hl

mutual
theorem netCache : {s s' : List Nat} → {n k p : Nat} → (N : Net s n s' k p) → {st st' : Store ℝ} → On N.stateful st st' → {B : Nat} → {X : Fin B → Fin n → ℝ} →
    N.mdl.cache B X st → N.mdl.cache B X st'
  | _, _, _, _, _, .linear _ _ _ _ _ _ _, _, _, _, _, _, _ => by simp [Net.mdl, Mdl.leaf]
  | _, _, _, _, _, .act _ _ _ _ _ _, _, _, _, _, _, _ => by simp [Net.mdl, Mdl.leaf]
  | _, _, _, _, _, .flatten _ _ _ _ _, _, _, _, _, _, _ => by simp [Net.mdl, Mdl.leaf]
  | _, _, _, _, _, .reshape _ _ _ _ _ _ _ _ _, _, _, _, _, _, _ => by simp [Net.mdl, Mdl.leaf]
  | _, _, _, _, _, .l2norm _ _ _ _ _ _ _, _, _, _, _, _, _ => by simp [Net.mdl, Mdl.leaf]
  | _, _, _, _, _, .conv _ _ _ _, _, _, _, _, _, _ => by simp [Net.mdl, Mdl.leaf]
  | _, _, _, _, _, .upsample _ _ _ _ _ _ _ _ _, _, _, _, _, _, _ => by simp [Net.mdl, Mdl.leaf]
  | _, _, _, _, _, .maxpool id g, st, st', o, _, _, h => by
    simp only [Net.mdl, MaxPool2d.poolMdl] at h ⊢
    rw [o.pidx id (by simp [Net.stateful])]; exact h
  | _, _, _, _, _, .seq id c, st, st', o, _, _, h => by
    simp only [Net.mdl, seqMdl] at h ⊢
    simp only [Net.stateful] at o
    exact seqCache c o h (chainCache c ⟨o.param, o.hooks, fun i hi => o.fmaps i (List.mem_cons_of_mem _ hi), fun i hi => o.pidx i (List.mem_cons_of_mem _ hi)⟩ h.2)
  | _, _, _, _, _, .skip _ fid ch, st, st', o, _, _, h => by
    simp only [Net.mdl, skipMdl, seqMdl] at h ⊢
    simp only [Net.stateful] at o
    exact seqCache ch o h (chainCache ch ⟨o.param, o.hooks, fun i hi => o.fmaps i (List.mem_cons_of_mem _ hi), fun i hi => o.pidx i (List.mem_cons_of_mem _ hi)⟩ h.2)
theorem chainCache : {s s' : List Nat} → {n k p l : Nat} → (c : Chain s n s' k p l) → {st st' : Store ℝ} → On c.stateful st st' → {B : Nat} → {X : Fin B → Fin n → ℝ} →
    c.mchain.kids B X st → c.mchain.kids B X st'
  | _, _, _, _, _, _, .nil _ _ _ _, _, _, _, _, _, _ => by simp [Chain.mchain, MChain.kids]
  | _, _, _, _, _, _, .snoc c m, st, st', o, _, X, h => by
    simp only [Chain.mchain, MChain.kids] at h ⊢
    simp only [Chain.stateful] at o
    have o1 : On c.stateful st st' := ⟨o.param, o.hooks, fun i hi => o.fmaps i (List.mem_append_left _ hi), fun i hi => o.pidx i (List.mem_append_left _ hi)⟩
    have o2 : On m.stateful st st' := ⟨o.param, o.hooks, fun i hi => o.fmaps i (List.mem_append_right _ hi), fun i hi => o.pidx i (List.mem_append_right _ hi)⟩
    refine ⟨chainCache c o1 h.1, ?_⟩
    have e : c.mchain.Y st' X = c.mchain.Y st X := by
      funext b
      show c.mchain.S.f (c.mchain.w st') (X b) = c.mchain.S.f (c.mchain.w st) (X b)
      rw [chainW c o.param]
    rw [e]
    exact netCache m o2 h.2
end

end Grow

mutual
theorem Net.stateful_sub : {s s' : List Nat} → {n k p : Nat} → (N : Net s n s' k p) → ∀ i ∈ N.stateful, i ∈ N.ids
  | _, _, _, _, _, .linear _ _ _ _ _ _ _ => by simp [Net.stateful]
  | _, _, _, _, _, .act _ _ _ _ _ _ => by simp [Net.stateful]
  | _, _, _, _, _, .flatten _ _ _ _ _ => by simp [Net.stateful]
  | _, _, _, _, _, .reshape _ _ _ _ _ _ _ _ _ => by simp [Net.stateful]
  | _, _, _, _, _, .l2norm _ _ _ _ _ _ _ => by simp [Net.stateful]
  | _, _, _, _, _, .conv _ _ _ _ => by simp [Net.stateful]
  | _, _, _, _, _, .upsample _ _ _ _ _ _ _ _ _ => by simp [Net.stateful]
  | _, _, _, _, _, .maxpool _ _ => by simp [Net.stateful, Net.ids]
  | _, _, _, _, _, .seq id c => by
    simp only [Net.stateful, Net.ids, List.mem_cons]
    exact fun i hi => hi.imp_right (c.stateful_sub i)
  | _, _, _, _, _, .skip id fid ch => by
    simp only [Net.stateful, Net.ids, List.mem_cons]
    exact fun i hi => Or.inr (hi.imp_right (ch.stateful_sub i))
theorem Chain.stateful_sub : {s s' : List Nat} → {n k p l : Nat} → (c : Chain s n s' k p l) → ∀ i ∈ c.stateful, i ∈ c.ids
  | _, _, _, _, _, _, .nil _ _ _ _ => by simp [Chain.stateful]
  | _, _, _, _, _, _, .snoc c m => by
    simp only [Chain.stateful, Chain.ids, List.mem_append]
    exact fun i hi => hi.imp (c.stateful_sub i) (m.stateful_sub i)
end

end NNJ
