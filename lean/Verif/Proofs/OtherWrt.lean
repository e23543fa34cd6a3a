import Verif.Proofs.NoneIff

/-!
# Calls with an unknown `wrt`
-/

set_option linter.unusedSectionVars false

namespace NNJ
open Tensor

variable {α : Type}

/-- what the methods return, if they return, is `None` -/
structure OtherNone (m : Mod α) : Prop where
  jacobian : ∀ x val, Post (m.jacobian x val .other) fun r => r = none
  jvp : ∀ x val v, Post (m.jvp x val v .other) fun r => r = none
  jmp : ∀ x val v, Post (m.jmp x val v .other) fun r => r = none
  jmjTp : ∀ x val v fd td db, Post (m.jmjTp x val v .other fd td db) fun r => r = none
  vjp : ∀ x val v, Post (m.vjp x val v .other) fun r => r = none
  mjp : ∀ x val v, Post (m.mjp x val v .other) fun r => r = none
  jTmjp : ∀ x val v fd td db, Post (m.jTmjp x val v .other fd td db) fun r => r = .none

/-- the same for a stateless layer -/
structure OtherNoneR (L : PureLayer α) : Prop where
  jacobian : ∀ x val, RPost (L.jacobian x val .other) fun r => r = none
  jvp : ∀ x val v, RPost (L.jvp x val v .other) fun r => r = none
  jmp : ∀ x val v, RPost (L.jmp x val v .other) fun r => r = none
  jmjTp : ∀ x val v fd td db, RPost (L.jmjTp x val v .other fd td db) fun r => r = none
  vjp : ∀ x val v, RPost (L.vjp x val v .other) fun r => r = none
  mjp : ∀ x val v, RPost (L.mjp x val v .other) fun r => r = none
  jTmjp : ∀ x val v fd td db, RPost (L.jTmjp x val v .other fd td db) fun r => r = none

theorem OtherNoneR.toMod {L : Store α → PureLayer α} {id nParams : Nat} {params : List Nat} (h : ∀ s, OtherNoneR (L s)) :
    OtherNone (PureLayer.toMod L id nParams params) where
  jacobian _ _ := Post.of_res fun s => (h s).jacobian _ _
  jvp _ _ _ := Post.of_res fun s => (h s).jvp _ _ _
  jmp _ _ _ := Post.of_res fun s => (h s).jmp _ _ _
  jmjTp _ _ _ _ _ _ := Post.of_res fun s => RPost.any fun _ => (h s).jmjTp _ _ _ _ _ _
  vjp _ _ _ := Post.of_res fun s => (h s).vjp _ _ _
  mjp _ _ _ := Post.of_res fun s => (h s).mjp _ _ _
  jTmjp _ _ _ _ _ _ := Post.of_res fun s => ((h s).jTmjp _ _ _ _ _ _).bind fun _ hr => RPost.pure (ofOption_none.2 hr)

section layers
variable [Zero α] [One α] [Add α] [Mul α]

theorem resh_otherNone (fwd : Tensor α → Res (Tensor α)) : OtherNoneR (Resh.layer fwd) := by
  constructor <;> intros <;>
    simp only [Resh.layer, Resh.jacobian, Resh.jvp, Resh.jmp, Resh.jmjTp, Resh.vjp, Resh.jTmjp] <;> rpost <;> simp

theorem linear_otherNone (W : Tensor α) (b : Option (Tensor α)) (n : Nat) : OtherNoneR (Linear.layer W b n) := by
  have hj : ∀ x val, RPost (Linear.jacobian W b x val .other) fun r => r = none := by
    intro x val; simp only [Linear.jacobian]; rpost <;> simp
  constructor <;> intros <;> simp only [Linear.layer]
  · exact hj _ none
  · exact RPost.ok rfl
  · rename_i v; cases v
    · exact hj _ none
    · exact RPost.ok rfl
  · exact RPost.any fun _ => RPost.ok rfl
  · exact RPost.ok rfl
  · rename_i v; cases v
    · exact hj _ none
    · exact RPost.ok rfl
  · simp only [Linear.jTmjp]; rpost <;> rfl

theorem diag_otherNone {fwd : Tensor α → Res (Tensor α)} {jac : AbstractDiagonal.Jac α}
    (hw : ∀ x val d, RPost (jac x val .other d) fun r => r = none) : OtherNoneR (AbstractDiagonal.defaults fwd jac) := by
  constructor <;> intros <;> simp only [AbstractDiagonal.defaults]
  · exact hw _ _ _
  · refine (hw _ _ _).bind ?_; rintro _ rfl; exact RPost.pure rfl
  · rename_i v; cases v
    · exact hw _ _ _
    · refine (hw _ _ _).bind ?_; rintro _ rfl; exact RPost.pure rfl
  · simp only [AbstractDiagonal.jmjTp]
    refine RPost.any fun _ => ?_
    split <;> (refine RPost.any fun _ => ?_) <;> split <;> (try refine RPost.any fun _ => ?_) <;>
      (refine (hw _ _ _).bind ?_; rintro _ rfl; exact RPost.pure rfl)
  · refine (hw _ _ _).bind ?_; rintro _ rfl; exact RPost.pure rfl
  · rename_i v; cases v
    · exact hw _ _ _
    · refine (hw _ _ _).bind ?_; rintro _ rfl; exact RPost.pure rfl
  · simp only [AbstractDiagonal.jTmjp]
    refine RPost.any fun _ => ?_
    split <;> (refine RPost.any fun _ => ?_) <;> split <;> (try refine RPost.any fun _ => ?_) <;>
      (refine (hw _ _ _).bind ?_; rintro _ rfl; exact RPost.pure rfl)

theorem act_otherNone (f : α → α) (g : Tensor α → Tensor α → Tensor α) : OtherNoneR (Activation.layer f g) :=
  diag_otherNone fun x val d => by simp only [Activation.jacobian]; rpost; rfl

theorem jac_otherNone {fwd : Tensor α → Res (Tensor α)} {jac : AbstractJacobian.Jac α}
    (hw : ∀ x val, RPost (jac x val .other) fun r => r = none) : OtherNoneR (AbstractJacobian.defaults fwd jac) := by
  constructor <;> intros <;> simp only [AbstractJacobian.defaults]
  · exact hw _ _
  all_goals refine (hw _ _).bind ?_; rintro _ rfl; exact RPost.pure rfl

theorem upsample_otherNone (f : Upsample.Scale) : OtherNoneR (Upsample.layer (α := α) f) := by
  constructor <;> intros <;> simp only [Upsample.layer]
  · exact RPost.ok rfl
  · exact RPost.ok rfl
  · rename_i v; cases v <;> exact RPost.ok rfl
  · simp only [Upsample.jmjTp]; rpost; rfl
  · simp only [Upsample.vjp]; rpost; rfl
  · rename_i v; cases v <;> exact RPost.ok rfl
  · simp only [Upsample.jTmjp]; rpost <;> rfl

theorem conv_otherNone (cfg : Conv2d.Cfg) (W : Tensor α) (b : Option (Tensor α)) : OtherNoneR (Conv2d.layer cfg W b) := by
  have hm : ∀ x val v, RPost (Conv2d.mjpSome cfg W b x val v .other) fun r => r = none := by
    intro x val v; simp only [Conv2d.mjpSome]; rpost <;> rfl
  have hj : ∀ x val, RPost (Conv2d.jacobian cfg W b x val .other) fun r => r = none := by
    intro x val
    exact RPost.any fun _ => RPost.any fun ⟨_, _, _, _⟩ => RPost.any fun _ => hm _ _ _
  constructor <;> intros <;> simp only [Conv2d.layer]
  · exact hj _ _
  · simp only [Conv2d.jvp]; rpost <;> rfl
  · rename_i v; cases v
    · exact hj _ _
    · exact RPost.ok rfl
  · simp only [Conv2d.jmjTp]; rpost <;> rfl
  · simp only [Conv2d.vjp]; rpost <;> rfl
  · simp only [Conv2d.mjp]
    refine RPost.any fun _ => ?_
    split
    · exact hj _ _
    · exact hm _ _ _
  · simp only [Conv2d.jTmjp]; rpost <;> rfl

end layers

section maxpool
variable [Zero α] [One α] [Add α] [Mul α] [LT α] [DecidableLT α]

theorem maxpool_otherNone (a : Torch.PoolArgs) (id : Nat) : OtherNone (MaxPool2d.mod (α := α) a id) := by
  constructor <;> intros
  · exact Post.pure rfl
  · exact Post.pure rfl
  · rename_i v; cases v <;> exact Post.pure rfl
  · exact Post.any fun _ => Post.pure rfl
  · exact Post.pure rfl
  · rename_i v; cases v <;> exact Post.pure rfl
  · rename_i x val v fd td db
    refine Post.any fun val => Post.any fun ⟨_, _, _, _⟩ => Post.any fun ⟨_, _, _, _⟩ => Post.any fun _ => Post.any fun ⟨m', fd'⟩ => ?_
    cases fd' <;> exact Post.any fun _ => Post.pure rfl

end maxpool

/-! ### containers -/

section containers
variable [Zero α] [One α] [Add α] [Mul α]

/-- the assertion at the start of five of the methods of a Sequential -/
theorem Sequential.other_raises (id : Nat) (hk : Bool) (ms : List (Mod α)) (x : Tensor α) (val : Option (Tensor α)) (st : Store α) :
    (mod id hk ms).jacobian x val .other st = (.error .assertion, st) ∧
    (∀ v, (mod id hk ms).jvp x val v .other st = (.error .assertion, st)) ∧
    (∀ m, (mod id hk ms).jmp x val m .other st = (.error .assertion, st)) ∧
    (∀ v, (mod id hk ms).vjp x val v .other st = (.error .assertion, st)) ∧
    (∀ m, (mod id hk ms).mjp x val m .other st = (.error .assertion, st)) :=
  ⟨rfl, fun _ => rfl, fun _ => rfl, fun _ => rfl, fun _ => rfl⟩

theorem Sequential.otherNone (id : Nat) (hk : Bool) (ms : List (Mod α)) : OtherNone (mod id hk ms) := by
  have h := fun x val st => Sequential.other_raises id hk ms x val st
  constructor
  · intro x val st r s' e; rw [(h x val st).1] at e; cases e
  · intro x val v st r s' e; rw [(h x val st).2.1] at e; cases e
  · intro x val v st r s' e; rw [(h x val st).2.2.1] at e; cases e
  · intros; exact Post.any fun _ => Post.any fun _ => Post.pure rfl
  · intro x val v st r s' e; rw [(h x val st).2.2.2.1] at e; cases e
  · intro x val v st r s' e; rw [(h x val st).2.2.2.2] at e; cases e
  · intros; exact Post.any fun _ => Post.any fun _ => Post.any fun _ => Post.any fun _ => Post.pure rfl

theorem Sequential.jTmjp_other (id : Nat) (hk : Bool) (ms : List (Mod α)) (x : Tensor α) (val m : Option (Tensor α))
    (fd td db : Bool) (st : Store α) : (mod id hk ms).jTmjp x val m .other fd td db st =
      (((mod id hk ms).jTmjp x val m .input fd td db st).1.map fun _ => .none, ((mod id hk ms).jTmjp x val m .input fd td db st).2) := by
  have step : ∀ {β : Type} (p : Prog α β) (f g : β → Prog α (PyVal α)) (st : Store α),
      (∀ b st, f b st = ((g b st).1.map fun _ => .none, (g b st).2)) →
      (p >>= f) st = (((p >>= g) st).1.map fun _ => .none, ((p >>= g) st).2) := by
    intro β p f g st h
    rcases e : p st with ⟨_ | b, st'⟩
    · rw [Prog.bind_error e, Prog.bind_error e]; rfl
    · rw [Prog.bind_ok e, Prog.bind_ok e, h]
  refine step _ _ _ _ fun _ st => step _ _ _ _ fun _ st => step _ _ _ _ fun ⟨_, _⟩ st => step _ _ _ _ fun _ st => rfl

theorem Sequential.jmjTp_other (id : Nat) (hk : Bool) (ms : List (Mod α)) (x : Tensor α) (m : PyVal α)
    (fd td : Bool) (st : Store α) : (mod id hk ms).jmjTp x none m .other fd td false st =
      (((mod id hk ms).forward x st).1.map fun _ => none, ((mod id hk ms).forward x st).2) := by
  change (forward id hk ms x >>= fun _ => pure none) st = ((forward id hk ms x st).1.map fun _ => none, (forward id hk ms x st).2)
  rcases e : forward id hk ms x st with ⟨_ | b, st'⟩
  · rw [Prog.bind_error e]; rfl
  · rw [Prog.bind_ok e]; rfl

theorem SkipConnection.other_raises (id fid : Nat) (hk : Bool) (ms : List (Mod α)) (x : Tensor α) (val : Option (Tensor α)) :
    ((SkipConnection.mod id (Sequential.mod fid hk ms)).jacobian x val .other).Raises ∧
    (∀ v, ((SkipConnection.mod id (Sequential.mod fid hk ms)).jvp x val v .other).Raises) ∧
    (∀ m, ((SkipConnection.mod id (Sequential.mod fid hk ms)).jmp x val m .other).Raises) ∧
    (∀ v, ((SkipConnection.mod id (Sequential.mod fid hk ms)).vjp x val v .other).Raises) ∧
    (∀ m, ((SkipConnection.mod id (Sequential.mod fid hk ms)).mjp x val m .other).Raises) := by
  have any : ∀ {β γ : Type} {p : Prog α β} {f : β → Prog α γ}, (∀ b, (f b).Raises) → (p >>= f).Raises := by
    intro β γ p f h st
    rcases e : p st with ⟨er | b, st'⟩
    · exact ⟨er, st', Prog.bind_error e⟩
    · rw [Prog.bind_ok e]; exact h b st'
  have first : ∀ {β γ : Type} {p : Prog α β} {f : β → Prog α γ}, (∀ st, p st = (.error .assertion, st)) → (p >>= f).Raises :=
    fun h st => ⟨_, _, Prog.bind_error (h st)⟩
  have hj : ((SkipConnection.mod id (Sequential.mod fid hk ms)).jacobian x val .other).Raises := first fun _ => rfl
  refine ⟨hj, fun v => any fun _ => any fun _ => any fun _ => first fun _ => rfl, fun m => ?_,
    fun v => any fun _ => any fun _ => any fun _ => any fun _ => first fun _ => rfl, fun m => ?_⟩
  · cases m
    · exact hj
    · exact any fun _ => any fun _ => any fun _ => first fun _ => rfl
  · cases m
    · exact hj
    · exact any fun _ => any fun _ => any fun _ => any fun _ => first fun _ => rfl

theorem SkipConnection.otherNone (id : Nat) (F : Mod α) : OtherNone (SkipConnection.mod id F) := by
  have hj : ∀ x val, Post ((SkipConnection.mod id F).jacobian x val .other) fun r => r = none := fun x val =>
    Post.any fun _ => Post.any fun _ => Post.any fun _ => Post.any fun _ => Post.pure rfl
  constructor <;> intros
  · exact hj _ _
  · exact Post.any fun _ => Post.any fun _ => Post.any fun _ => Post.any fun _ => Post.pure rfl
  · rename_i v; cases v
    · exact hj _ _
    · exact Post.any fun _ => Post.any fun _ => Post.any fun _ => Post.any fun _ => Post.pure rfl
  · exact Post.any fun _ => Post.any fun _ => Post.any fun _ => Post.any fun _ => Post.any fun _ => Post.any fun _ => Post.any fun _ => Post.pure rfl
  · exact Post.any fun _ => Post.any fun _ => Post.any fun _ => Post.any fun _ => Post.any fun _ => Post.pure rfl
  · rename_i v; cases v
    · exact hj _ _
    · exact Post.any fun _ => Post.any fun _ => Post.any fun _ => Post.any fun _ => Post.any fun _ => Post.pure rfl
  · exact Post.any fun _ => Post.any fun _ => Post.any fun _ => Post.any fun _ => Post.any fun _ => Post.any fun _ => Post.any fun _ => Post.pure rfl

end containers

theorem Net.otherNone : {s s' : List Nat} → {n k p : Nat} → (N : Net s n s' k p) → OtherNone N.mod
  | _, _, _, _, _, .linear _ _ _ _ _ _ _ => OtherNoneR.toMod fun _ => linear_otherNone _ _ _
  | _, _, _, _, _, .act a _ _ _ _ _ => by cases a <;> exact OtherNoneR.toMod fun _ => act_otherNone _ _
  | _, _, _, _, _, .flatten _ _ _ _ _ => OtherNoneR.toMod fun _ => resh_otherNone _
  | _, _, _, _, _, .reshape _ _ _ _ _ _ _ _ _ => OtherNoneR.toMod fun _ => resh_otherNone _
  | _, _, _, _, _, .l2norm _ _ _ _ _ _ _ => OtherNoneR.toMod fun _ => jac_otherNone fun _ _ => by
      simp only [L2Norm.jacobian]; rpost; rfl
  | _, _, _, _, _, .conv _ _ _ _ => OtherNoneR.toMod fun _ => conv_otherNone _ _ _
  | _, _, _, _, _, .upsample _ _ _ _ _ _ _ _ _ => OtherNoneR.toMod fun _ => upsample_otherNone _
  | _, _, _, _, _, .maxpool _ g => maxpool_otherNone g.a _
  | _, _, _, _, _, .seq _ _ => Sequential.otherNone _ _ _
  | _, _, _, _, _, .skip _ _ _ => SkipConnection.otherNone _ _

end NNJ
