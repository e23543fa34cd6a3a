import Verif.Proofs.Post
import Verif.Spec.Net

/-!
For every module and every call: a product wrt the weights that returns, returns `None` exactly if the
module has no parameters; a product wrt the input never returns `None`.
-/

set_option linter.unusedSectionVars false

namespace NNJ
open Tensor

variable {α : Type}

/-- what the methods of a module may return -/
structure NoneIff (m : Mod α) : Prop where
  jacobian : ∀ x val, Post (m.jacobian x val .weight) fun r => r = none ↔ m.nParams = 0
  jvp : ∀ x val v, Post (m.jvp x val v .weight) fun r => r = none ↔ m.nParams = 0
  jmp : ∀ x val v, Post (m.jmp x val v .weight) fun r => r = none ↔ m.nParams = 0
  jmjTp : ∀ x val v fd td db, Post (m.jmjTp x val v .weight fd td db) fun r => r = none ↔ m.nParams = 0
  vjp : ∀ x val v, Post (m.vjp x val v .weight) fun r => r = none ↔ m.nParams = 0
  mjp : ∀ x val v, Post (m.mjp x val v .weight) fun r => r = none ↔ m.nParams = 0
  jTmjp : ∀ x val v fd td db, Post (m.jTmjp x val v .weight fd td db) fun r => r = .none ↔ m.nParams = 0
  jacobianI : ∀ x val, Post (m.jacobian x val .input) fun r => r ≠ none
  jvpI : ∀ x val v, Post (m.jvp x val v .input) fun r => r ≠ none
  jmpI : ∀ x val v, Post (m.jmp x val v .input) fun r => r ≠ none
  jmjTpI : ∀ x val v fd td db, Post (m.jmjTp x val v .input fd td db) fun r => r ≠ none
  vjpI : ∀ x val v, Post (m.vjp x val v .input) fun r => r ≠ none
  mjpI : ∀ x val v, Post (m.mjp x val v .input) fun r => r ≠ none
  jTmjpI : ∀ x val v fd td db, Post (m.jTmjp x val v .input fd td db) fun r => r ≠ .none

/-- the same for a stateless layer; `c`: it has no parameters -/
structure NoneIffR (L : PureLayer α) (c : Prop) : Prop where
  jacobian : ∀ x val, RPost (L.jacobian x val .weight) fun r => r = none ↔ c
  jvp : ∀ x val v, RPost (L.jvp x val v .weight) fun r => r = none ↔ c
  jmp : ∀ x val v, RPost (L.jmp x val v .weight) fun r => r = none ↔ c
  jmjTp : ∀ x val v fd td db, RPost (L.jmjTp x val v .weight fd td db) fun r => r = none ↔ c
  vjp : ∀ x val v, RPost (L.vjp x val v .weight) fun r => r = none ↔ c
  mjp : ∀ x val v, RPost (L.mjp x val v .weight) fun r => r = none ↔ c
  jTmjp : ∀ x val v fd td db, RPost (L.jTmjp x val v .weight fd td db) fun r => r = none ↔ c
  jacobianI : ∀ x val, RPost (L.jacobian x val .input) fun r => r ≠ none
  jvpI : ∀ x val v, RPost (L.jvp x val v .input) fun r => r ≠ none
  jmpI : ∀ x val v, RPost (L.jmp x val v .input) fun r => r ≠ none
  jmjTpI : ∀ x val v fd td db, RPost (L.jmjTp x val v .input fd td db) fun r => r ≠ none
  vjpI : ∀ x val v, RPost (L.vjp x val v .input) fun r => r ≠ none
  mjpI : ∀ x val v, RPost (L.mjp x val v .input) fun r => r ≠ none
  jTmjpI : ∀ x val v fd td db, RPost (L.jTmjp x val v .input fd td db) fun r => r ≠ none

theorem ofOption_none {r : Option (Tensor α)} : PyVal.ofOption r = .none ↔ r = none := by
  cases r <;> simp [PyVal.ofOption]

theorem NoneIffR.toMod {L : Store α → PureLayer α} {id nParams : Nat} {params : List Nat} (h : ∀ s, NoneIffR (L s) (nParams = 0)) :
    NoneIff (PureLayer.toMod L id nParams params) where
  jacobian _ _ := Post.of_res fun s => (h s).jacobian _ _
  jvp _ _ _ := Post.of_res fun s => (h s).jvp _ _ _
  jmp _ _ _ := Post.of_res fun s => (h s).jmp _ _ _
  jmjTp _ _ _ _ _ _ := Post.of_res fun s => RPost.any fun _ => (h s).jmjTp _ _ _ _ _ _
  vjp _ _ _ := Post.of_res fun s => (h s).vjp _ _ _
  mjp _ _ _ := Post.of_res fun s => (h s).mjp _ _ _
  jTmjp _ _ _ _ _ _ := Post.of_res fun s => ((h s).jTmjp _ _ _ _ _ _).bind fun _ hr => RPost.pure (ofOption_none.trans hr)
  jacobianI _ _ := Post.of_res fun s => (h s).jacobianI _ _
  jvpI _ _ _ := Post.of_res fun s => (h s).jvpI _ _ _
  jmpI _ _ _ := Post.of_res fun s => (h s).jmpI _ _ _
  jmjTpI _ _ _ _ _ _ := Post.of_res fun s => RPost.any fun _ => (h s).jmjTpI _ _ _ _ _ _
  vjpI _ _ _ := Post.of_res fun s => (h s).vjpI _ _ _
  mjpI _ _ _ := Post.of_res fun s => (h s).mjpI _ _ _
  jTmjpI _ _ _ _ _ _ := Post.of_res fun s => ((h s).jTmjpI _ _ _ _ _ _).bind fun _ hr => RPost.pure fun h => hr (ofOption_none.1 h)

/-! ### layers -/

section layers
variable [Zero α] [One α] [Add α] [Mul α]

theorem resh_noneIff (fwd : Tensor α → Res (Tensor α)) : NoneIffR (Resh.layer fwd) True := by
  constructor <;> intros <;>
    simp only [Resh.layer, Resh.jacobian, Resh.jvp, Resh.jmp, Resh.jmjTp, Resh.vjp, Resh.jTmjp, Resh.sandwich] <;> rpost <;> simp

theorem linear_noneIff (W : Tensor α) (b : Option (Tensor α)) (n : Nat) : NoneIffR (Linear.layer W b n) False := by
  have hj : ∀ x val, RPost (Linear.jacobian W b x val .weight) fun r => r = none ↔ False := by
    intro x val; simp only [Linear.jacobian]; rpost <;> simp
  have hjI : ∀ x val, RPost (Linear.jacobian W b x val .input) fun r => r ≠ none := by
    intro x val; simp only [Linear.jacobian]; rpost <;> simp
  have hm : ∀ x val v, RPost (Linear.mjp W b x val v .weight) fun r => r = none ↔ False := by
    intro x val v; cases v
    · exact hj x val
    · simp only [Linear.mjp]; rpost <;> simp
  have hp : ∀ x val v, RPost (Linear.jmp W b n x val v .weight) fun r => r = none ↔ False := by
    intro x val v; cases v
    · exact hj x val
    · simp only [Linear.jmp]; rpost <;> simp
  constructor <;> intros <;> simp only [Linear.layer]
  · exact hj _ _
  · simp only [Linear.jvp]; rpost <;> simp
  · exact hp _ _ _
  · rename_i x val v fd td db
    have hf : ∀ x val m, RPost (Linear.jmjTpWeightFull W b n x val m) fun r => r = none ↔ False := by
      intros; simp only [Linear.jmjTpWeightFull]
      refine RPost.any fun _ => RPost.any fun _ => RPost.any fun _ => RPost.any fun _ => hp _ _ _
    refine RPost.any fun _ => ?_
    cases v with
    | none =>
      refine RPost.any fun _ => RPost.any fun ⟨m', fd'⟩ => ?_
      cases fd' <;> cases td
      · exact hf _ _ _
      · exact RPost.any fun _ => RPost.any fun _ => RPost.mapAny fun _ => by simp
      · exact RPost.any fun _ => RPost.mapAny fun _ => by simp
      · exact RPost.mapAny fun _ => by simp
    | some m =>
      refine RPost.any fun ⟨m', fd'⟩ => ?_
      cases fd' <;> cases td
      · exact hf _ _ _
      · exact RPost.any fun _ => RPost.any fun _ => RPost.mapAny fun _ => by simp
      · exact RPost.any fun _ => RPost.mapAny fun _ => by simp
      · exact RPost.mapAny fun _ => by simp
  · simp only [Linear.vjp]; rpost <;> simp
  · exact hm _ _ _
  · simp only [Linear.jTmjp]; rpost <;> first | exact hm _ _ _ | simp
  · exact hjI _ _
  · simp only [Linear.jvp]; rpost <;> simp
  · rename_i v; cases v
    · exact hjI _ (by assumption)
    · simp only [Linear.jmp]; rpost <;> simp
  · rename_i x val v fd td db
    refine RPost.any fun _ => ?_
    cases v <;> cases fd <;> cases td <;> exact RPost.mapAny fun _ => by simp
  · simp only [Linear.vjp]; rpost <;> simp
  · rename_i v; cases v
    · exact hjI _ (by assumption)
    · simp only [Linear.mjp]; rpost <;> simp
  · simp only [Linear.jTmjp]; rpost <;> simp

theorem diag_noneIff {fwd : Tensor α → Res (Tensor α)} {jac : AbstractDiagonal.Jac α}
    (hw : ∀ x val d, RPost (jac x val .weight d) fun r => r = none) (hi : ∀ x val d, RPost (jac x val .input d) fun r => r ≠ none) :
    NoneIffR (AbstractDiagonal.defaults fwd jac) True := by
  have hs : ∀ d m fd td, RPost (AbstractDiagonal.sandwich (α := α) d m fd td) fun r => r ≠ none := by
    intros; simp only [AbstractDiagonal.sandwich]; rpost <;> simp
  constructor <;> intros <;> simp only [AbstractDiagonal.defaults, iff_true]
  · exact hw _ _ _
  · refine (hw _ _ _).bind ?_; rintro _ rfl; exact RPost.pure rfl
  · rename_i v; cases v
    · exact hw _ _ _
    · refine (hw _ _ _).bind ?_; rintro _ rfl; exact RPost.pure rfl
  · simp only [AbstractDiagonal.jmjTp]
    refine RPost.any fun _ => ?_
    split <;> (refine RPost.any fun _ => ?_) <;> split <;> (try refine RPost.any fun _ => ?_) <;>
      (refine (hw _ _ _).bind ?_; rintro _ rfl; exact RPost.pure rfl)
  · refine (hw _ _ _).bind ?_; rintro _ rfl; exact RPost.pure rfl
  · rename_i v; cases v
    · exact hw _ _ _
    · refine (hw _ _ _).bind ?_; rintro _ rfl; exact RPost.pure rfl
  · simp only [AbstractDiagonal.jTmjp]
    refine RPost.any fun _ => ?_
    split <;> (refine RPost.any fun _ => ?_) <;> split <;> (try refine RPost.any fun _ => ?_) <;>
      (refine (hw _ _ _).bind ?_; rintro _ rfl; exact RPost.pure rfl)
  · exact hi _ _ _
  · refine (hi _ _ _).bind ?_; intro r hr; cases r <;> [exact absurd rfl hr; (rpost <;> simp)]
  · rename_i v; cases v
    · exact hi _ _ _
    · refine (hi _ _ _).bind ?_; intro r hr; cases r <;> [exact absurd rfl hr; (rpost <;> simp)]
  · simp only [AbstractDiagonal.jmjTp]
    refine RPost.any fun _ => ?_
    split <;> (refine RPost.any fun _ => ?_) <;> split <;> (try refine RPost.any fun _ => ?_) <;>
      (refine (hi _ _ _).bind ?_; intro r hr; cases r <;> [exact absurd rfl hr; exact hs _ _ _ _])
  · refine (hi _ _ _).bind ?_; intro r hr; cases r <;> [exact absurd rfl hr; (rpost <;> simp)]
  · rename_i v; cases v
    · exact hi _ _ _
    · refine (hi _ _ _).bind ?_; intro r hr; cases r <;> [exact absurd rfl hr; (rpost <;> simp)]
  · simp only [AbstractDiagonal.jTmjp]
    refine RPost.any fun _ => ?_
    split <;> (refine RPost.any fun _ => ?_) <;> split <;> (try refine RPost.any fun _ => ?_) <;>
      (refine (hi _ _ _).bind ?_; intro r hr; cases r <;> [exact absurd rfl hr; exact hs _ _ _ _])

theorem act_noneIff (f : α → α) (g : Tensor α → Tensor α → Tensor α) : NoneIffR (Activation.layer f g) True := by
  refine diag_noneIff (fun x val d => ?_) fun x val d => ?_
  · simp only [Activation.jacobian]; rpost; rfl
  · simp only [Activation.jacobian]; rpost <;> simp

theorem jac_noneIff {fwd : Tensor α → Res (Tensor α)} {jac : AbstractJacobian.Jac α}
    (hw : ∀ x val, RPost (jac x val .weight) fun r => r = none) (hi : ∀ x val, RPost (jac x val .input) fun r => r ≠ none) :
    NoneIffR (AbstractJacobian.defaults fwd jac) True := by
  constructor <;> intros <;> simp only [AbstractJacobian.defaults, iff_true]
  · exact hw _ _
  · refine (hw _ _).bind ?_; rintro _ rfl; exact RPost.pure rfl
  · refine (hw _ _).bind ?_; rintro _ rfl; exact RPost.pure rfl
  · refine (hw _ _).bind ?_; rintro _ rfl; exact RPost.pure rfl
  · refine (hw _ _).bind ?_; rintro _ rfl; exact RPost.pure rfl
  · refine (hw _ _).bind ?_; rintro _ rfl; exact RPost.pure rfl
  · refine (hw _ _).bind ?_; rintro _ rfl; exact RPost.pure rfl
  · exact hi _ _
  all_goals
    refine (hi _ _).bind ?_; intro r hr; cases r <;> [exact absurd rfl hr; (rpost <;> simp)]

theorem upsample_noneIff (f : Upsample.Scale) : NoneIffR (Upsample.layer (α := α) f) True := by
  have hm : ∀ x val v, RPost (Upsample.mjpSome (α := α) f x val v .input) fun r => r ≠ none := by
    intros; simp only [Upsample.mjpSome]; rpost <;> simp
  have hjI : ∀ x val, RPost (Upsample.jacobian (α := α) f x val .input) fun r => r ≠ none := by
    intros; simp only [Upsample.jacobian]; rpost; simp
  constructor <;> intros <;> simp only [Upsample.layer, iff_true]
  · exact RPost.ok rfl
  · exact RPost.ok rfl
  · rename_i v; cases v
    · exact RPost.ok rfl
    · exact RPost.ok rfl
  · simp only [Upsample.jmjTp]; rpost; rfl
  · simp only [Upsample.vjp]; rpost; rfl
  · rename_i v; cases v
    · exact RPost.ok rfl
    · exact RPost.ok rfl
  · simp only [Upsample.jTmjp]; rpost <;> rfl
  · exact hjI _ _
  · exact RPost.error
  · rename_i v; cases v
    · exact hjI _ _
    · exact RPost.error
  · simp only [Upsample.jmjTp]; rpost
  · simp only [Upsample.vjp]; rpost; simp
  · rename_i v; cases v
    · exact hjI _ _
    · exact hm _ _ _
  · simp only [Upsample.jTmjp]; rpost <;> simp

theorem conv_noneIff (cfg : Conv2d.Cfg) (W : Tensor α) (b : Option (Tensor α)) : NoneIffR (Conv2d.layer cfg W b) False := by
  have hm : ∀ x val v wrt, wrt ≠ .other → RPost (Conv2d.mjpSome cfg W b x val v wrt) fun r => r ≠ none := by
    intro x val v wrt hw; cases wrt <;> simp only [Conv2d.mjpSome]
    · rpost <;> simp
    · rpost <;> simp
    · exact absurd rfl hw
  have hj : ∀ x val wrt, wrt ≠ .other → RPost (Conv2d.jacobian cfg W b x val wrt) fun r => r ≠ none := by
    intro x val wrt hw
    exact RPost.any fun _ => RPost.any fun ⟨_, _, _, _⟩ => RPost.any fun _ => hm _ _ _ _ hw
  have hm' : ∀ x val v wrt, wrt ≠ .other → RPost (Conv2d.mjp cfg W b x val v wrt) fun r => r ≠ none := by
    intro x val v wrt hw; simp only [Conv2d.mjp]
    refine RPost.any fun _ => ?_
    cases v
    · exact hj _ _ _ hw
    · exact hm _ _ _ _ hw
  constructor <;> intros <;> simp only [Conv2d.layer, iff_false]
  · exact hj _ _ _ (by simp)
  · exact RPost.error
  · rename_i v; cases v
    · exact hj _ _ _ (by simp)
    · exact RPost.error
  · simp only [Conv2d.jmjTp]; rpost
  · simp only [Conv2d.vjp]; rpost <;> simp
  · exact hm' _ _ _ _ (by simp)
  · simp only [Conv2d.jTmjp]; rpost <;> simp
  · exact hj _ _ _ (by simp)
  · exact RPost.error
  · rename_i v; cases v
    · exact hj _ _ _ (by simp)
    · exact RPost.error
  · simp only [Conv2d.jmjTp]; rpost
  · simp only [Conv2d.vjp]; rpost <;> simp
  · exact hm' _ _ _ _ (by simp)
  · simp only [Conv2d.jTmjp]; rpost <;> simp

end layers

section maxpool
variable [Zero α] [One α] [Add α] [Mul α] [LT α] [DecidableLT α]

theorem maxpool_noneIff (a : Torch.PoolArgs) (id : Nat) : NoneIff (MaxPool2d.mod (α := α) a id) := by
  have hp : ∀ x val v, Post (MaxPool2d.jmpSome (α := α) id a x val v .input) fun r => r ≠ none := fun x val v =>
    Post.any fun _ => Post.any fun _ => Post.any fun _ => Post.pure (by simp)
  have hj : ∀ x val, Post (MaxPool2d.jacobian (α := α) id a x val .input) fun r => r ≠ none := fun x val =>
    Post.any fun _ => Post.any fun ⟨_, _, _, _⟩ => Post.any fun ⟨_, _, _, _⟩ => Post.any fun _ => Post.any fun _ => hp _ _ _
  have h0 : ∀ {p : Prog α (Option (Tensor α))}, p = pure none → Post p fun r => r = none ↔ (MaxPool2d.mod (α := α) a id).nParams = 0 := by
    rintro _ rfl; exact Post.pure (iff_of_true rfl rfl)
  constructor <;> intros
  · exact h0 rfl
  · exact h0 rfl
  · rename_i v; cases v <;> exact h0 rfl
  · exact Post.any fun _ => h0 rfl
  · exact h0 rfl
  · rename_i v; cases v <;> exact h0 rfl
  · rename_i x val v fd td db
    refine Post.any fun val => Post.any fun ⟨_, _, _, _⟩ => Post.any fun ⟨_, _, _, _⟩ => Post.any fun _ => Post.any fun ⟨m', fd'⟩ => ?_
    cases fd' <;> exact Post.any fun _ => Post.pure (iff_of_true rfl rfl)
  · exact hj _ _
  · exact Post.throw
  · rename_i v; cases v
    · exact hj _ _
    · exact hp _ _ _
  · exact Post.any fun _ => Post.throw
  · exact Post.any fun _ => Post.any fun _ => Post.any fun _ => Post.pure (by simp)
  · rename_i v; cases v
    · exact hj _ _
    · exact Post.any fun _ => Post.any fun _ => Post.any fun _ => Post.pure (by simp)
  · rename_i x val v fd td db
    refine Post.any fun val => Post.any fun ⟨_, _, _, _⟩ => Post.any fun ⟨_, _, _, _⟩ => Post.any fun _ => Post.any fun ⟨m', fd'⟩ => ?_
    cases fd' <;> exact Post.any fun _ => Post.any fun _ => Post.any fun _ => Post.pure (by simp)

end maxpool

/-! ### Sequential -/

namespace Sequential
variable [Zero α] [One α] [Add α] {id : Nat} {ms : List (Mod α)}

/-- `ms[k]` satisfies what all of `ms` do -/
theorem child_post {P : Mod α → Prop} (h : ∀ m ∈ ms, P m) (k : Nat) : Post (child ms k) fun m => P m ∧ ms[k]? = some m := by
  intro s b s' hb
  unfold child at hb
  cases hk : ms[k]? with
  | none => rw [hk] at hb; cases hb
  | some m => rw [hk] at hb; cases hb; exact ⟨h _ (List.mem_of_getElem? hk), rfl⟩

theorem accum_post {P : Prop} {acc new : Option (Tensor α)} (hn : new = none ↔ P) :
    RPost (accum acc new) fun r => r = none ↔ acc = none ∧ P := by
  cases new with
  | none => exact RPost.ok (by simp [hn.1 rfl])
  | some n =>
    have : ¬ P := fun h => by simpa using hn.2 h
    cases acc with
    | none => exact RPost.ok (by simp [this])
    | some a => exact RPost.mapAny fun _ => by simp [this]

theorem through_post {acc : Option (Tensor α)} {f : Tensor α → Prog α (Option (Tensor α))} (h : ∀ a, Post (f a) fun r => r ≠ none) :
    Post (through acc f) fun r => r = none ↔ acc = none := by
  cases acc with
  | none => exact Post.pure (by simp)
  | some a => exact (h a).mono fun r hr => by simp [hr]

theorem nParams_cons (m : Mod α) (ms : List (Mod α)) : nParams (m :: ms) = m.nParams + nParams ms := by simp [nParams]

theorem jvpWeight_post (v : Tensor α) (h : ∀ m ∈ ms, NoneIff m) (x : Tensor α) (p : Nat) (acc : Option (Tensor α)) :
    Post (jvpWeight v ms x p acc) fun r => r.1 = none ↔ acc = none ∧ nParams ms = 0 := by
  induction ms generalizing x p acc with
  | nil => exact Post.pure (by simp [nParams])
  | cons m ms ih =>
    have hm := h m (by simp)
    refine Post.any fun val => (through_post fun a => hm.jvpI _ _ _).bind fun acc1 h1 => Post.any fun _ =>
      (hm.jvp _ _ _).bind fun new h2 => (Post.lift (accum_post h2)).bind fun acc2 h3 => (ih (fun m' hm' => h m' (by simp [hm'])) _ _ _).mono fun r hr => ?_
    rw [hr, h3, h1, nParams_cons]; constructor <;> intro hh <;> [exact ⟨hh.1.1, by omega⟩; exact ⟨⟨hh.1, by omega⟩, by omega⟩]

theorem jmpWeight_post (v : Tensor α) (h : ∀ m ∈ ms, NoneIff m) (x : Tensor α) (p : Nat) (acc : Option (Tensor α)) :
    Post (jmpWeight v ms x p acc) fun r => r.1 = none ↔ acc = none ∧ nParams ms = 0 := by
  induction ms generalizing x p acc with
  | nil => exact Post.pure (by simp [nParams])
  | cons m ms ih =>
    have hm := h m (by simp)
    refine Post.any fun val => (through_post fun a => hm.jmpI _ _ _).bind fun acc1 h1 => Post.any fun _ =>
      (hm.jmp _ _ _).bind fun new h2 => (Post.lift (accum_post h2)).bind fun acc2 h3 => (ih (fun m' hm' => h m' (by simp [hm'])) _ _ _).mono fun r hr => ?_
    rw [hr, h3, h1, nParams_cons]; constructor <;> intro hh <;> [exact ⟨hh.1.1, by omega⟩; exact ⟨⟨hh.1, by omega⟩, by omega⟩]

theorem jmjTpWeight_post (n : Nat) (fd td db : Bool) (bs : List (PyVal α)) (h : ∀ m ∈ ms, NoneIff m) (k kp : Nat) (acc : Option (Tensor α)) :
    Post (jmjTpWeight id n fd td db bs ms k kp acc) fun r => r = none ↔ acc = none ∧ nParams ms = 0 := by
  induction ms generalizing k kp acc with
  | nil => exact Post.pure (by simp [nParams])
  | cons m ms ih =>
    have hm := h m (by simp)
    have ih := ih fun m' hm' => h m' (by simp [hm'])
    refine (through_post fun a => Post.any fun _ => Post.any fun _ => hm.jmjTpI _ _ _ _ _ _).bind fun acc1 h1 => ?_
    split
    next h0 =>
      refine (ih _ _ _).mono fun r hr => ?_
      rw [hr, h1, nParams_cons, h0, Nat.zero_add]
    next h0 =>
      refine Post.any fun _ => Post.any fun _ => Post.any fun _ => (hm.jmjTp _ _ _ _ _ _).bind fun new h2 =>
        (Post.lift (accum_post h2)).bind fun acc2 h3 => (ih _ _ _).mono fun r hr => ?_
      rw [hr, h3, h1, nParams_cons]; constructor <;> intro hh <;> [exact ⟨hh.1.1, by omega⟩; exact ⟨⟨hh.1, by omega⟩, by omega⟩]

theorem jmjTpInput_post (n : Nat) (fd td db : Bool) (h : ∀ m ∈ ms, NoneIff m) (k : Nat) (v : PyVal α) (hv : v ≠ .none) :
    Post (jmjTpInput id n fd td db ms k v) fun r => r ≠ .none := by
  induction ms generalizing k v with
  | nil => exact Post.pure hv
  | cons m ms ih =>
    refine Post.any fun _ => Post.any fun _ => ((h m (by simp)).jmjTpI _ _ _ _ _ _).bind fun r hr => ih (fun m' hm' => h m' (by simp [hm'])) _ _ ?_
    intro h0; exact hr (ofOption_none.1 h0)

/-- number of parameters of the first `k` layers -/
theorem nParams_take_succ {k : Nat} {m : Mod α} (hk : ms[k]? = some m) : nParams (ms.take (k + 1)) = nParams (ms.take k) + m.nParams := by
  rw [List.take_add_one, hk]
  simp [nParams]

theorem vjpWeight_post (h : ∀ m ∈ ms, NoneIff m) (k : Nat) (v : Tensor α) (vs : List (Tensor α)) :
    Post (vjpWeight id ms k v vs) fun r => r = [] ↔ vs = [] ∧ nParams (ms.take k) = 0 := by
  induction k generalizing v vs with
  | zero => exact Post.pure (by simp [nParams])
  | succ k ih =>
    refine (child_post h k).bind fun m ⟨hm, hk⟩ => Post.any fun _ => Post.any fun _ => (hm.vjp _ _ _).bind fun new h2 => ?_
    have key : (new.toList ++ vs = [] ∧ nParams (ms.take k) = 0) ↔ (vs = [] ∧ nParams (ms.take (k + 1)) = 0) := by
      rw [nParams_take_succ hk, List.append_eq_nil_iff, Option.toList_eq_nil_iff, h2]
      constructor <;> intro hh <;> [exact ⟨hh.1.2, by omega⟩; exact ⟨⟨by omega, hh.1⟩, by omega⟩]
    dsimp only
    split
    next h0 => subst h0; exact Post.pure (by rw [← key]; simp [nParams])
    next h0 => exact Post.any fun _ => Post.any fun _ => (ih _ _).mono fun r hr => hr.trans key

theorem mjpWeight_post (h : ∀ m ∈ ms, NoneIff m) (k : Nat) (v : Tensor α) (vs : List (Tensor α)) :
    Post (mjpWeight id ms k v vs) fun r => r = [] ↔ vs = [] ∧ nParams (ms.take k) = 0 := by
  induction k generalizing v vs with
  | zero => exact Post.pure (by simp [nParams])
  | succ k ih =>
    refine (child_post h k).bind fun m ⟨hm, hk⟩ => Post.any fun _ => Post.any fun _ => (hm.mjp _ _ _).bind fun new h2 => ?_
    have key : (new.toList ++ vs = [] ∧ nParams (ms.take k) = 0) ↔ (vs = [] ∧ nParams (ms.take (k + 1)) = 0) := by
      rw [nParams_take_succ hk, List.append_eq_nil_iff, Option.toList_eq_nil_iff, h2]
      constructor <;> intro hh <;> [exact ⟨hh.1.2, by omega⟩; exact ⟨⟨by omega, hh.1⟩, by omega⟩]
    dsimp only
    split
    next h0 => subst h0; exact Post.pure (by rw [← key]; simp [nParams])
    next h0 => exact Post.any fun _ => Post.any fun _ => (ih _ _).mono fun r hr => hr.trans key

theorem consVal_nil {v : PyVal α} {vs : List (PyVal α)} : consVal v vs = [] ↔ v = .none ∧ vs = [] := by
  cases v <;> simp [consVal]

theorem jTmjpWeight_post (n : Nat) (fd td db : Bool) (h : ∀ m ∈ ms, NoneIff m) (k : Nat) (v : Option (Tensor α)) (vs : List (PyVal α)) :
    Post (jTmjpWeight id n ms fd td db k v vs) fun r => r = [] ↔ vs = [] ∧ nParams (ms.take k) = 0 := by
  induction k generalizing v vs with
  | zero => exact Post.pure (by simp [nParams])
  | succ k ih =>
    refine (child_post h k).bind fun m ⟨hm, hk⟩ => Post.any fun _ => Post.any fun _ => (hm.jTmjp _ _ _ _ _ _).bind fun new h2 => ?_
    have key : (consVal new vs = [] ∧ nParams (ms.take k) = 0) ↔ (vs = [] ∧ nParams (ms.take (k + 1)) = 0) := by
      rw [nParams_take_succ hk, consVal_nil, h2]
      constructor <;> intro hh <;> [exact ⟨hh.1.2, by omega⟩; exact ⟨⟨by omega, hh.1⟩, by omega⟩]
    dsimp only
    split
    next h0 => subst h0; exact Post.pure (by rw [← key]; simp [nParams])
    next h0 => exact Post.any fun _ => Post.any fun _ => (ih _ _).mono fun r hr => hr.trans key

theorem jTmjpInput_post (n : Nat) (fd td db : Bool) (h : ∀ m ∈ ms, NoneIff m) (k : Nat) (v : Option (Tensor α)) (hv : v ≠ none) :
    Post (jTmjpInput id n ms fd td db k v) fun r => r ≠ none := by
  induction k generalizing v with
  | zero => exact Post.pure hv
  | succ k ih =>
    refine (child_post h k).bind fun m ⟨hm, hk⟩ => Post.any fun _ => Post.any fun _ => (hm.jTmjpI _ _ _ _ _ _).bind fun r hr => ?_
    refine (Post.lift (Q := fun o => o ≠ none) ?_).bind fun o ho => ih _ ho
    cases r with
    | none => exact absurd rfl hr
    | tensor t => exact RPost.ok (by simp)
    | list l => exact RPost.error

theorem catOrNone_post {d : Nat} {vs : List (Tensor α)} {P : Prop} (h : vs = [] ↔ P) : RPost (catOrNone d vs) fun r => r = none ↔ P := by
  unfold catOrNone
  cases vs with
  | nil => exact RPost.ok (by simp [← h])
  | cons a vs => exact RPost.mapAny fun _ => by simp [← h]

theorem noneIff (id : Nat) (b : Bool) (h : ∀ m ∈ ms, NoneIff m) : NoneIff (mod id b ms) := by
  have hm : ∀ x val v, Post (mjp id b ms x val v .weight) fun r => r = none ↔ nParams ms = 0 := by
    intro x val v
    refine Post.any fun _ => Post.any fun _ => Post.any fun _ => (mjpWeight_post h _ _ _).bind fun vs hvs => Post.lift (catOrNone_post ?_)
    rw [hvs, List.take_length]; simp
  have hmI : ∀ x val v, Post (mjp id b ms x val v .input) fun r => r ≠ none := by
    intro x val v
    exact Post.any fun _ => Post.any fun _ => Post.any fun _ => Post.any fun _ => Post.pure (by simp)
  constructor <;> intros <;> dsimp only [mod]
  · exact hm _ _ none
  · refine Post.any fun _ => (jvpWeight_post _ h _ _ _).bind fun ⟨r, p⟩ hr => Post.any fun _ => Post.pure ?_
    simpa using hr
  · rename_i v; cases v
    · exact Post.any fun _ => hm _ _ none
    · refine Post.any fun _ => (jmpWeight_post _ h _ _ _).bind fun ⟨r, p⟩ hr => Post.any fun _ => Post.pure ?_
      simpa using hr
  · rename_i x val v fd td db
    refine Post.any fun _ => Post.any fun _ => Post.any fun ⟨m', fd'⟩ => ?_
    have key : ∀ bs, Post (jmjTpWeight id ms.length fd' td db bs ms 0 0 none) fun r => r = none ↔ nParams ms = 0 := fun bs =>
      (jmjTpWeight_post (id := id) ms.length fd' td db bs h 0 0 none).mono fun r hr => by simpa using hr
    cases m' with
    | none => exact Post.any fun _ => key _
    | list vs => exact Post.any fun _ => key _
    | tensor t => exact Post.any fun ⟨_, _⟩ => Post.any fun _ => Post.any fun _ => key _
  · refine Post.any fun _ => Post.any fun _ => (vjpWeight_post h _ _ _).bind fun vs hvs => Post.lift (catOrNone_post ?_)
    rw [hvs, List.take_length]; simp
  · exact hm _ _ _
  · rename_i x val v fd td db
    refine Post.any fun _ => Post.any fun _ => Post.any fun ⟨m', fd'⟩ => (jTmjpWeight_post _ _ _ _ h _ _ _).bind fun vs hvs => ?_
    rw [List.take_length] at hvs
    split
    next h0 => exact Post.pure (iff_of_true rfl (hvs.1 (List.length_eq_zero_iff.1 h0)).2)
    next h0 =>
      have : ¬ nParams ms = 0 := fun hh => h0 (by rw [hvs.2 ⟨rfl, hh⟩]; rfl)
      split
      · exact Post.any fun _ => Post.any fun _ => Post.pure (by simp [this])
      · exact Post.pure (by simp [this])
  · exact hmI _ _ none
  · exact Post.any fun _ => Post.any fun _ => Post.pure (by simp)
  · rename_i v; cases v
    · exact Post.any fun _ => hmI _ _ none
    · exact Post.any fun _ => Post.any fun _ => Post.pure (by simp)
  · rename_i x val v fd td db
    have fin : ∀ r : PyVal α, r ≠ .none → RPost r.toOption fun o => o ≠ none := by
      intro r hr
      cases r with
      | none => exact absurd rfl hr
      | tensor t => exact RPost.ok (by simp)
      | list l => exact RPost.error
    refine Post.any fun _ => Post.any fun _ => ?_
    cases v with
    | none => exact (jmjTpInput_post _ _ _ _ h _ _ (by simp)).bind fun r hr => Post.lift (fin r hr)
    | tensor t => exact (jmjTpInput_post _ _ _ _ h _ _ (by simp)).bind fun r hr => Post.lift (fin r hr)
    | list l => exact (jmjTpInput_post _ _ _ _ h _ _ (by simp)).bind fun r hr => Post.lift (fin r hr)
  · exact Post.any fun _ => Post.any fun _ => Post.any fun _ => Post.pure (by simp)
  · exact hmI _ _ _
  · refine Post.any fun _ => Post.any fun _ => Post.any fun ⟨m', fd'⟩ => (jTmjpInput_post _ _ _ _ h _ _ (by simp)).bind fun r hr => Post.pure ?_
    exact fun h => hr (ofOption_none.1 h)

end Sequential

/-! ### SkipConnection -/

namespace SkipConnection
variable [Zero α] [One α] [Add α] [Mul α] {F : Mod α}

/-- a product wrt the weights of a SkipConnection around layers without parameters -/
theorem need_raises {β : Type} {p : Prog α (Option (Tensor α))} {f : Option (Tensor α) → Prog α β} {g : Tensor α → Prog α β} {P : Prop}
    (hP : P) (hp : Post p fun r => r = none ↔ P) (hf : f none = (Prog.need none >>= g)) {Q : β → Prop} : Post (p >>= f) Q := by
  refine hp.bind fun r hr => ?_
  rw [hr.2 hP, hf]
  exact Post.need fun t ht => by cases ht

theorem some_of_need {p : Prop} {v : Option (Tensor α)} (h : v = none ↔ p) {t : Tensor α} (ht : v = some t) {u : Tensor α} :
    (some u = none ↔ p) := by
  subst ht; simpa using h

theorem noneIff (id : Nat) (h : NoneIff F) : NoneIff (mod id F) := by
  have hj : ∀ x val, Post (jacobian F F.nParams x val .weight) fun r => r = none ↔ F.nParams = 0 := fun x val =>
    (h.jacobian _ _).bind fun _ hr => Post.any fun _ => Post.any fun _ => Post.any fun _ => Post.need fun _ ht => Post.any fun _ =>
      Post.pure (some_of_need hr ht)
  have hjI : ∀ x val, Post (jacobian F F.nParams x val .input) fun r => r ≠ none := fun x val =>
    Post.any fun _ => Post.any fun _ => Post.any fun _ => Post.any fun _ => Post.any fun _ => Post.any fun _ => Post.any fun _ =>
      Post.any fun _ => Post.pure (by simp)
  constructor <;> intros <;> dsimp only [mod]
  · exact hj _ _
  · exact Post.any fun _ => Post.any fun _ => Post.any fun _ => (h.jvp _ _ _).bind fun _ hr => Post.any fun _ => Post.need fun _ ht => Post.any fun _ =>
      Post.pure (some_of_need hr ht)
  · rename_i v; cases v
    · exact hj _ _
    · exact Post.any fun _ => Post.any fun _ => Post.any fun _ => (h.jmp _ _ _).bind fun _ hr => Post.any fun _ => Post.need fun _ ht => Post.any fun _ =>
        Post.pure (some_of_need hr ht)
  · rename_i x val v fd td db
    refine Post.any fun _ => Post.any fun _ => Post.any fun _ => Post.any fun _ => Post.any fun _ => Post.any fun _ => (h.jmjTp _ _ _ _ _ _).bind fun _ hr => ?_
    cases td
    · exact Post.need fun _ ht => Post.any fun _ => Post.any fun _ => Post.pure (some_of_need hr ht)
    · exact Post.any fun _ => Post.need fun _ ht => Post.any fun _ => Post.pure (some_of_need hr ht)
  · exact Post.any fun _ => Post.any fun _ => Post.any fun _ => Post.any fun _ => (h.vjp _ _ _).bind fun _ hr => Post.pure hr
  · rename_i v; cases v
    · exact hj _ _
    · exact Post.any fun _ => Post.any fun _ => Post.any fun _ => Post.any fun _ => (h.mjp _ _ _).bind fun _ hr => Post.pure hr
  · rename_i x val v fd td db
    cases v <;> refine Post.any fun _ => Post.any fun _ => Post.any fun _ => Post.any fun _ => Post.any fun _ => Post.any fun _ =>
      (h.jTmjp _ _ _ _ _ _).bind fun _ hr => Post.pure hr
  · exact hjI _ _
  · exact Post.any fun _ => Post.any fun _ => Post.any fun _ => Post.any fun _ => Post.any fun _ => Post.any fun _ => Post.pure (by simp)
  · rename_i v; cases v
    · exact hjI _ _
    · exact Post.any fun _ => Post.any fun _ => Post.any fun _ => Post.any fun _ => Post.any fun _ => Post.any fun _ => Post.pure (by simp)
  · rename_i x val v fd td db
    cases v <;> cases fd <;> cases td <;> dsimp only [jmjTp] <;> ppost <;> simp
  · exact Post.any fun _ => Post.any fun _ => Post.any fun _ => Post.any fun _ => Post.any fun _ => Post.any fun _ => Post.any fun _ => Post.any fun _ => Post.pure (by simp)
  · rename_i v; cases v
    · exact hjI _ _
    · exact Post.any fun _ => Post.any fun _ => Post.any fun _ => Post.any fun _ => Post.any fun _ => Post.any fun _ => Post.any fun _ => Post.any fun _ => Post.pure (by simp)
  · rename_i x val v fd td db
    cases v <;> cases fd <;> cases td <;> dsimp only [jTmjp] <;> ppost <;> simp

end SkipConnection
end NNJ
