import Verif.Proofs.NoneMatrix
import Verif.Props.Guards

/-! Which networks let `jmjTp` through, whatever the arguments. -/

namespace NNJ
open Tensor

section
variable {s s' : List Nat} {n k p l : Nat} (c : Chain s n s' k p l)

/-- what the loops of Sequential say of a chain -/
def Chain.PushLoop : Prop := ∀ (id N : Nat) (fd td db : Bool) (rest : List (Mod ℝ)) (Q : PyVal ℝ → Prop),
    (c.FwdI → ∀ k M, Post (Sequential.jmjTpInput id N fd td db rest k M) Q) →
    ∀ k M, Post (Sequential.jmjTpInput id N fd td db (c.mods ++ rest) k M) Q
def Chain.PushWLoop : Prop := ∀ (id N : Nat) (fd td db : Bool) (vs : List (PyVal ℝ)) (rest : List (Mod ℝ)) (Q : Option (Tensor ℝ) → Prop),
    (c.PushW → ∀ k kp acc, (p ≠ 0 → acc ≠ none) → Post (Sequential.jmjTpWeight id N fd td db vs rest k kp acc) Q) →
    ∀ k kp, Post (Sequential.jmjTpWeight id N fd td db vs (c.mods ++ rest) k kp none) Q

variable {c}

/-- a Sequential of these layers -/
theorem Chain.PushLoop.seq (h : c.PushLoop) (id : Nat) (x : Tensor ℝ) (val : Option (Tensor ℝ))
    (m : PyVal ℝ) (fd td db : Bool) : Post ((Sequential.mod id true c.mods).jmjTp x val m .input fd td db) fun _ => c.FwdI := by
  have key : ∀ (fd : Bool) (M : PyVal ℝ), Post (Sequential.jmjTpInput id c.mods.length fd td db c.mods 0 M) fun _ => c.FwdI := by
    intro fd M
    have := h id c.mods.length fd td db [] (fun _ => c.FwdI) (fun h _ _ => Post.mono Post.trivial fun _ _ => h) 0 M
    simpa using this
  refine Post.any fun _ => Post.any fun _ => ?_
  cases m <;> exact (key _ _).bind fun _ h => Post.mono Post.trivial fun _ _ => h

theorem Chain.PushWLoop.seq (h : c.PushWLoop) (id : Nat) (x : Tensor ℝ) (val : Option (Tensor ℝ))
    (m : PyVal ℝ) (fd td db : Bool) : Post ((Sequential.mod id true c.mods).jmjTp x val m .weight fd td db) fun _ => c.PushW := by
  have key : ∀ (fd : Bool) vs, Post (Sequential.jmjTpWeight id c.mods.length fd td db vs c.mods 0 0 none) fun _ => c.PushW := by
    intro fd vs
    have := h id c.mods.length fd td db vs [] (fun _ => c.PushW) (fun h _ _ _ _ => Post.mono Post.trivial fun _ _ => h) 0 0
    simpa using this
  refine Post.any fun _ => Post.any fun _ => Post.any fun ⟨M, fd⟩ => ?_
  cases M with
  | none => exact Post.of_raises (Prog.Raises.bind_left (Prog.Raises.throw _) _)
  | tensor t => exact Post.any fun ⟨vs, _⟩ => Post.any fun _ => key _ _
  | list vs => exact key _ _
end

mutual
/-- a network whose `jmjTp` has returned -/
theorem Net.push_post : {s s' : List Nat} → {n k p : Nat} → (N : Net s n s' k p) →
    (∀ x val m fd td db, Post (N.mod.jmjTp x val m .input fd td db) fun _ => N.FwdI) ∧
    (0 < p → ∀ x val m fd td db, Post (N.mod.jmjTp x val m .weight fd td db) fun _ => N.PushW)
  | _, _, _, _, _, .linear .. => by simp only [Net.FwdI, Net.PushW]; exact ⟨fun _ _ _ _ _ _ => Post.trivial, fun _ _ _ _ _ _ _ => Post.trivial⟩
  | _, _, _, _, _, .act .. => by simp only [Net.FwdI, Net.PushW]; exact ⟨fun _ _ _ _ _ _ => Post.trivial, fun _ _ _ _ _ _ _ => Post.trivial⟩
  | _, _, _, _, _, .flatten .. => by simp only [Net.FwdI, Net.PushW]; exact ⟨fun _ _ _ _ _ _ => Post.trivial, fun _ _ _ _ _ _ _ => Post.trivial⟩
  | _, _, _, _, _, .reshape .. => by simp only [Net.FwdI, Net.PushW]; exact ⟨fun _ _ _ _ _ _ => Post.trivial, fun _ _ _ _ _ _ _ => Post.trivial⟩
  | _, _, _, _, _, .l2norm .. => by simp only [Net.FwdI, Net.PushW]; exact ⟨fun _ _ _ _ _ _ => Post.trivial, fun _ _ _ _ _ _ _ => Post.trivial⟩
  | _, _, _, _, _, .conv .. => by
    simp only [Net.mod]
    exact ⟨fun _ _ _ _ _ _ => Post.of_raises (Props.C35_conv_jmjTp _ _ _ _ _ _ _ _ (by simp) _ _ _),
      fun _ _ _ _ _ _ _ => Post.of_raises (Props.C35_conv_jmjTp _ _ _ _ _ _ _ _ (by simp) _ _ _)⟩
  | _, _, _, _, _, .upsample .. => by
    simp only [Net.mod]
    exact ⟨fun _ _ _ _ _ _ => Post.of_raises (Props.C35_upsample_jmjTp _ _ _ _ _ _ _ _), fun h => absurd h (lt_irrefl 0)⟩
  | _, _, _, _, _, .maxpool .. => by
    simp only [Net.mod]
    exact ⟨fun _ _ _ _ _ _ => Post.of_raises (Props.C35_maxpool_jmjTp _ _ _ _ _ _ _ _), fun h => absurd h (lt_irrefl 0)⟩
  | _, _, _, _, _, .seq id c => by
    simp only [Net.mod, Net.FwdI, Net.PushW]
    exact ⟨(Chain.push_loop c).seq id, fun _ => (Chain.pushW_loop c).seq id⟩
  | _, _, _, _, _, .skip id fid ch => by
    simp only [Net.mod, Net.FwdI, Net.PushW]
    refine ⟨fun x val m fd td db => ?_, fun _ x val m fd td db => ?_⟩
    · refine Post.any fun _ => Post.any fun _ => Post.any fun _ => Post.any fun _ => Post.any fun _ => Post.any fun tv => ?_
      exact ((Chain.push_loop ch).seq fid x tv m fd td db).bind fun _ h => Post.mono Post.trivial fun _ _ => h
    · refine Post.any fun _ => Post.any fun _ => Post.any fun _ => Post.any fun _ => Post.any fun _ => Post.any fun tv => ?_
      exact ((Chain.pushW_loop ch).seq fid x tv m fd td db).bind fun _ h => Post.mono Post.trivial fun _ _ => h
theorem Chain.push_loop : {s s' : List Nat} → {n k p l : Nat} → (c : Chain s n s' k p l) → c.PushLoop
  | _, _, _, _, _, _, .nil _ _ _ _ => by
    intro _ _ _ _ _ _ _ h
    simp only [Chain.mods, List.nil_append]
    exact h (by simp only [Chain.FwdI])
  | _, _, _, _, _, _, .snoc c m => by
    intro id N fd td db rest Q h
    simp only [Chain.mods, List.append_assoc, List.cons_append, List.nil_append]
    refine Chain.push_loop c id N fd td db (m.mod :: rest) _ fun hc k M => ?_
    refine Post.any fun x => Post.any fun v => ((Net.push_post m).1 _ _ _ _ _ _).bind fun r hm => ?_
    exact h (by simp only [Chain.FwdI]; exact ⟨hc, hm⟩) _ _
theorem Chain.pushW_loop : {s s' : List Nat} → {n k p l : Nat} → (c : Chain s n s' k p l) → c.PushWLoop
  | _, _, _, _, _, _, .nil _ _ _ _ => by
    intro _ _ _ _ _ _ _ _ h
    simp only [Chain.mods, List.nil_append]
    exact fun k kp => h (by simp only [Chain.PushW]) k kp none (by simp)
  | _, _, _, _, _, _, @Chain.snoc _ _ _ _ _ _ p q _ c m => by
    intro id N fd td db vs rest Q h
    simp only [Chain.mods, List.append_assoc, List.cons_append, List.nil_append]
    refine Chain.pushW_loop c id N fd td db vs (m.mod :: rest) _ fun hc k kp acc hacc => ?_
    have hthr : ∀ (d : Bool), Post (Sequential.through acc fun a => do
        let x ← Sequential.fmap id k
        let v ← Sequential.fmap id (k + 1)
        m.mod.jmjTp x (some v) (.tensor a) .input db d db) fun r => (p = 0 ∨ m.FwdI) ∧ (p ≠ 0 → r ≠ none) := by
      intro d
      cases acc with
      | none =>
        have hp : p = 0 := by by_contra h0; exact hacc h0 rfl
        exact Post.pure ⟨.inl hp, fun h0 => absurd hp h0⟩
      | some a =>
        refine Post.any fun x => Post.any fun v => ?_
        intro s r s' hr
        exact ⟨.inr ((Net.push_post m).1 _ _ _ _ _ _ s r s' hr), fun _ => m.noneIff.jmjTpI _ _ _ _ _ _ s r s' hr⟩
    simp only [Sequential.jmjTpWeight]
    refine (hthr _).bind fun r ⟨h1, h2⟩ => ?_
    rw [m.nParams_eq]
    by_cases h0 : q = 0
    · rw [if_pos h0]
      exact h (by simp only [Chain.PushW]; exact ⟨hc, h1, .inl h0⟩) _ _ _ fun h' => h2 (by omega)
    · rw [if_neg h0]
      refine Post.any fun x => Post.any fun v => Post.any fun blk => ?_
      refine Post.bind (P := fun r => m.PushW ∧ r ≠ none) ?_ fun f ⟨hf, hn⟩ => ?_
      · intro s r s' hr
        refine ⟨(Net.push_post m).2 (Nat.pos_of_ne_zero h0) _ _ _ _ _ _ s r s' hr, fun e => h0 ?_⟩
        rw [← m.nParams_eq]
        exact (m.noneIff.jmjTp _ _ _ _ _ _ s r s' hr).1 e
      · refine Post.bind (P := fun a => a ≠ none) ?_ fun a ha => ?_
        · refine Post.lift ?_
          cases f with
          | none => exact absurd rfl hn
          | some f => cases r <;> simp only [Sequential.accum] <;> rpost <;> simp
        · exact h (by simp only [Chain.PushW]; exact ⟨hc, h1, .inr hf⟩) _ _ _ fun _ => ha
end

end NNJ
