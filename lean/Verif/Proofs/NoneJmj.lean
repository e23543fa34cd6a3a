import Verif.Proofs.NoneNet
import Verif.Spec.Weights

/-!
`jmjTp` wrt weight of a network without parameters that is not a SkipConnection returns None.
-/

namespace NNJ
open Tensor

namespace Sequential
variable {α : Type} [Zero α] [One α] [Add α] [Mul α]

theorem splitBlocks_zero (A : Tensor α) (fd : Bool) : ∀ (ms : List (Mod α)) (p : Nat), (∀ m ∈ ms, m.nParams = 0) →
    splitBlocks A fd ms p = .ok ([], p)
  | [], _, _ => rfl
  | m :: ms, p, h => by
    rw [splitBlocks, if_pos (h m (by simp))]
    exact splitBlocks_zero A fd ms p fun m hm => h m (by simp [hm])

theorem jmjTpWeight_zero (id n : Nat) (fd td db : Bool) (bl : List (PyVal α)) (st : Store α) : ∀ (ms : List (Mod α)) (k kp : Nat),
    (∀ m ∈ ms, m.nParams = 0) → jmjTpWeight id n fd td db bl ms k kp none st = (.ok none, st)
  | [], _, _, _ => rfl
  | m :: ms, k, kp, h => by
    have := jmjTpWeight_zero id n fd td db bl st ms (k + 1) kp fun m hm => h m (by simp [hm])
    refine (Prog.bind_ok (p := through none _) (s := st) rfl).trans ?_
    rw [if_pos (h m (by simp))]
    exact this

theorem nParams_zero {ms : List (Mod α)} (h : nParams ms = 0) : ∀ m ∈ ms, m.nParams = 0 := by
  intro m hm
  have := List.single_le_sum (l := ms.map (·.nParams)) (by simp) m.nParams (List.mem_map_of_mem hm)
  simp only [nParams] at h
  exact Nat.le_zero.1 (h ▸ this)

theorem jmjTp_zero {id : Nat} {ms : List (Mod α)} {st : Store α} {x A v : Tensor α} {fd td db : Bool} (hdb : db = true → fd = true ∧ td = true)
    (h : nParams ms = 0) (hf : ((mod id true ms).forward x st).1 = .ok v) :
    ((mod id true ms).jmjTp x none (.tensor A) .weight fd td db st).1 = .ok none := by
  rcases hr : (mod id true ms).forward x st with ⟨r, st'⟩
  rw [hr] at hf
  cases hf
  have ha : ((!db) || (db && fd && td)) = true := by cases db <;> simp_all
  have key : (mod id true ms).jmjTp x none (.tensor A) .weight fd td db st = (.ok none, st') := by
    refine (Prog.bind_ok (p := Prog.assert _) (s := st) (s' := st) (b := ()) (by rw [ha]; rfl)).trans ?_
    refine (Prog.bind_ok (p := getVal id true ms x none) (s := st) hr).trans ?_
    refine (Prog.bind_ok (p := liftM (Except.ok (PyVal.tensor A, fd))) (s := st') rfl).trans ?_
    refine (Prog.bind_ok (p := liftM (splitBlocks A fd ms 0)) (s := st') (s' := st') (b := ([], 0)) ?_).trans ?_
    · rw [splitBlocks_zero A fd ms 0 (nParams_zero h)]; rfl
    · refine (Prog.bind_ok (p := Prog.assert _) (s := st') (s' := st') (b := ()) (by rw [h]; rfl)).trans ?_
      exact jmjTpWeight_zero _ _ _ _ _ _ _ _ _ _ (nParams_zero h)
  rw [key]

end Sequential

theorem Net.jmjTp_zero {s s' : List Nat} {n k p : Nat} (N : Net s n s' k p) (hp : p = 0) (hN : ¬ N.IsSkip) {st : Store ℝ} {x A v : Tensor ℝ}
    {fd td db : Bool} (hdb : db = true → fd = true ∧ td = true) (hx : x.shape ≠ []) (hf : (N.mod.forward x st).1 = .ok v) :
    (N.mod.jmjTp x none (.tensor A) .weight fd td db st).1 = .ok none := by
  have hd : ∃ b, x.dim 0 = .ok b := by
    rcases h : x.shape with _ | ⟨b, _⟩
    · exact (hx h).elim
    · exact ⟨b, by simp [Tensor.dim, h]⟩
  obtain ⟨b, hd⟩ := hd
  cases N with
  | linear id wId bId i o hi ho => have := Nat.mul_pos ho hi; omega
  | act a id s n hs hn =>
    cases a <;>
      · show (x.dim 0 >>= _) = _
        rw [hd]; rfl
  | flatten => rfl
  | reshape => rfl
  | l2norm => rfl
  | conv id wId bId g =>
    have := Nat.mul_pos (Nat.mul_pos (Nat.mul_pos g.hc2 g.hc1) g.pkh) g.pkw
    omega
  | upsample id c h w r hc hh hw hr =>
    show (Upsample.forward _ x >>= _) = _
    rw [show Upsample.forward _ x = _ from hf]; rfl
  | maxpool id g =>
    rcases hr : (MaxPool2d.mod g.a id).forward x st with ⟨r, st'⟩
    rw [show (Net.maxpool id g).mod.forward x st = _ from hr] at hf
    cases hf
    exact congrArg Prod.fst (Prog.bind_ok (p := MaxPool2d.getVal id g.a x none) (s := st) hr)
  | seq id c => exact Sequential.jmjTp_zero hdb (c.nParams_eq.trans hp) hf
  | skip => exact (hN trivial).elim

end NNJ
