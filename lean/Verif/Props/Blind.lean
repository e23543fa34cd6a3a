import Verif.Proofs.Blind
import Verif.Model.Linear

/-!
# C80: which methods evaluate the network, and how often

A method evaluates no layer if it does the same - result, exception, final state, for every state - in the network whose
layers raise as soon as they are evaluated (`Blinded`).  The layers are arbitrary, also user-defined ones.
-/

namespace NNJ
namespace Props
open Tensor

variable {α : Type} [Zero α] [One α] [Add α] [Mul α]

/-- C80: given `val`, the backward methods of any nesting of Sequential and SkipConnection evaluate no layer. -/
theorem C80_backward {m m' : Mod α} (h : Blinded true m m') (x v : Tensor α) (wrt : Wrt) :
    m.jacobian x (some v) wrt = m'.jacobian x (some v) wrt ∧
    (∀ u, m.vjp x (some v) u wrt = m'.vjp x (some v) u wrt) ∧
    (∀ A, m.mjp x (some v) A wrt = m'.mjp x (some v) A wrt) ∧
    (∀ A f t db, m.jTmjp x (some v) A wrt f t db = m'.jTmjp x (some v) A wrt f t db) :=
  ⟨h.back.jacobian x v wrt, fun u => h.back.vjp x v u wrt, fun A => h.back.mjp x v A wrt,
    fun A f t db => h.back.jTmjp x v A wrt f t db⟩

section Example
/-- Sequential(Linear(2, 3), SkipConnection(Linear(3, 1))), over any numbers -/
def blNet (l : Mod Int → Mod Int) : Mod Int :=
  Sequential.mod 0 true [l (Linear.mod 1 0 (some 1) 2 3), SkipConnection.mod 2 (Sequential.mod 3 true [l (Linear.mod 4 2 none 3 1)])]

example : Blinded true (blNet fun m => m) (blNet Mod.blind) :=
  .seq 0 true (.cons (.leaf _) (.cons (.skip 2 rfl (.seq 3 true (.cons (.leaf _) .nil))) .nil))

-- the second network cannot be evaluated
example (x : Tensor Int) (st : Store Int) : ((blNet Mod.blind).forward x st).1 = .error .value := rfl
end Example

/-- C80: without `val` they evaluate a Sequential once, at the beginning, and no layer after that. -/
theorem C80_one_forward (id : Nat) (b : Bool) {ms ms' : List (Mod α)} (h : BlindedL true ms ms') (x : Tensor α) (wrt : Wrt)
    (hw : wrt ≠ .other) :
    let m := Sequential.mod id b ms
    let m' := Sequential.mod id b ms'
    (m.jacobian x none wrt = m.forward x >>= fun v => m'.jacobian x (some v) wrt) ∧
    (∀ u, m.vjp x none u wrt = m.forward x >>= fun v => m'.vjp x (some v) u wrt) ∧
    (∀ A, m.mjp x none A wrt = m.forward x >>= fun v => m'.mjp x (some v) A wrt) ∧
    (∀ A f t db, db = false ∨ (f = true ∧ t = true) →
      m.jTmjp x none A wrt f t db = m.forward x >>= fun v => m'.jTmjp x (some v) A wrt f t db) := by
  have hb := (Blinded.seq id b h).back
  intro m m'
  have hm : ∀ A, m.mjp x none A wrt = m.forward x >>= fun v => m'.mjp x (some v) A wrt := by
    intro A
    have e : (fun v => m'.mjp x (some v) A wrt) = fun v => m.mjp x (some v) A wrt := by funext v; exact (hb.mjp x v A wrt).symm
    rw [e]
    cases wrt with
    | input => rfl
    | weight => rfl
    | other => exact absurd rfl hw
  refine ⟨hm none, fun u => ?_, hm, fun A f t db hf => ?_⟩
  · have e : (fun v => m'.vjp x (some v) u wrt) = fun v => m.vjp x (some v) u wrt := by funext v; exact (hb.vjp x v u wrt).symm
    rw [e]
    cases wrt with
    | input => rfl
    | weight => rfl
    | other => exact absurd rfl hw
  · have e : (fun v => m'.jTmjp x (some v) A wrt f t db) = fun v => m.jTmjp x (some v) A wrt f t db := by
      funext v; exact (hb.jTmjp x v A wrt f t db).symm
    rw [e]
    have ha : ((!db) || (db && f && t)) = true := by
      rcases hf with rfl | ⟨rfl, rfl⟩
      · rfl
      · cases db <;> rfl
    show Sequential.jTmjp id b ms x none A wrt f t db = Sequential.forward id b ms x >>= fun v => Sequential.jTmjp id b ms x (some v) A wrt f t db
    unfold Sequential.jTmjp
    rw [ha]
    rfl

example : BlindedL true [Linear.mod (α := Int) 1 0 (some 1) 2 3, Linear.mod 4 2 none 3 1]
    [(Linear.mod 1 0 (some 1) 2 3).blind, (Linear.mod 4 2 none 3 1).blind] := .cons (.leaf _) (.cons (.leaf _) .nil)

/-- C80: given `val`, `jmjTp` of any nesting of Sequentials (without SkipConnection) evaluates no layer. -/
theorem C80_jmjTp {m m' : Mod α} (h : Blinded false m m') (x v : Tensor α) (A : PyVal α) (wrt : Wrt) (f t db : Bool) :
    m.jmjTp x (some v) A wrt f t db = m'.jmjTp x (some v) A wrt f t db := h.push.jmjTp x v A wrt f t db

example : Blinded false (Sequential.mod 0 true [Linear.mod (α := Int) 1 0 (some 1) 2 3, Sequential.mod 2 true [Linear.mod 4 2 none 3 1]])
    (Sequential.mod 0 true [(Linear.mod 1 0 (some 1) 2 3).blind, Sequential.mod 2 true [(Linear.mod 4 2 none 3 1).blind]]) :=
  .seq 0 true (.cons (.leaf _) (.cons (.seq 2 true (.cons (.leaf _) .nil)) .nil))

/-- C80: a SkipConnection does, although `val` is given: with `wrt="input"` and `to_diag=False`, if the first layer cannot be
evaluated, `jmjTp` does not return. -/
theorem C80_skip_jmjTp (id fid : Nat) (b : Bool) (m : Mod α) (ms : List (Mod α)) (hm : ∀ x st r, (m.forward x st).1 ≠ .ok r)
    (x v A : Tensor α) (f db : Bool) (st : Store α) (r : Option (Tensor α)) :
    ((SkipConnection.mod id (Sequential.mod fid b (m :: ms))).jmjTp x (some v) (.tensor A) .input f false db st).1 ≠ .ok r := by
  have hj : ∀ val M, BlindNoRet ((Sequential.mod fid b (m :: ms)).jmp x val (some M) .input) := by
    intro val M
    refine BlindNoRet.bindR fun _ => BlindNoRet.bindL (BlindNoRet.bindL (BlindNoRet.bindL ?_))
    intro s y
    exact hm x s y
  intro hr
  refine (?_ : BlindNoRet ((SkipConnection.mod id (Sequential.mod fid b (m :: ms))).jmjTp x (some v) (.tensor A) .input f false db)) st r hr
  refine BlindNoRet.bindR fun _ => BlindNoRet.bindR fun _ => BlindNoRet.bindR fun _ => BlindNoRet.bindR fun _ => BlindNoRet.bindR fun _ =>
    BlindNoRet.bindR fun tv => BlindNoRet.bindR fun _ => BlindNoRet.bindR fun M => ?_
  cases f with
  | true => exact BlindNoRet.bindR fun M' => BlindNoRet.bindL (hj tv M')
  | false => exact BlindNoRet.bindL (hj tv M)

example : ∀ x st r, ((Linear.mod (α := Int) 4 2 none 3 1).blind.forward x st).1 ≠ .ok r := fun _ _ _ h => by cases h

/-- C80: `jvp` and `jmp` (with a matrix) of a Sequential ignore `val`, and evaluate the layers again: if the first layer cannot
be evaluated, neither do they return. -/
theorem C80_forward_mode (id : Nat) (b : Bool) (m : Mod α) (ms : List (Mod α)) (x : Tensor α) (val : Option (Tensor α)) (u : Tensor α)
    (wrt : Wrt) (hw : wrt ≠ .other) (st : Store α) (e : Err) (st' : Store α) (he : m.forward x st = (.error e, st')) :
    ((Sequential.mod id b (m :: ms)).jvp x val u wrt = (Sequential.mod id b (m :: ms)).jvp x none u wrt) ∧
    ((Sequential.mod id b (m :: ms)).jmp x val (some u) wrt = (Sequential.mod id b (m :: ms)).jmp x none (some u) wrt) ∧
    (Sequential.mod id b (m :: ms)).jvp x val u wrt st = (.error e, st') ∧
    (Sequential.mod id b (m :: ms)).jmp x val (some u) wrt st = (.error e, st') := by
  have hc : ∀ {β : Type} (g : Tensor α → Prog α β), (m.call x >>= g) st = (.error e, st') := by
    intro β g
    refine Prog.bind_error ?_
    exact Prog.bind_error he
  refine ⟨rfl, rfl, ?_, ?_⟩
  · cases wrt with
    | input => exact (Prog.bind_ok (b := ()) (s' := st) rfl).trans (Prog.bind_error (hc _))
    | weight => exact (Prog.bind_ok (b := ()) (s' := st) rfl).trans (Prog.bind_error (hc _))
    | other => exact absurd rfl hw
  · cases wrt with
    | input => exact (Prog.bind_ok (b := ()) (s' := st) rfl).trans (Prog.bind_error (hc _))
    | weight => exact (Prog.bind_ok (b := ()) (s' := st) rfl).trans (Prog.bind_error (hc _))
    | other => exact absurd rfl hw

example (x : Tensor Int) (st : Store Int) : (Linear.mod (α := Int) 4 2 none 3 1).blind.forward x st = (.error .value, st) := rfl

/-- C80: a layer inside `d` Sequentials (`d > 0`, one inside the other) is evaluated `d` times by `jvp` and `jmp` and once by
`vjp` and `mjp`, if `val` is not given; `d` times and not at all, if it is. -/
theorem C80_nested {cnt : Store α → Nat} {m : Mod α} (hc : Counts cnt m) (id : Nat) (ids : List Nat) (x u v : Tensor α) (wrt : Wrt)
    (hw : wrt ≠ .other) (s : Store α) (r : Option (Tensor α)) (s' : Store α) :
    let N := nest m (id :: ids)
    let d := (id :: ids).length
    (N.jvp x none u wrt s = (.ok r, s') ∨ N.jvp x (some v) u wrt s = (.ok r, s') → cnt s' = cnt s + d) ∧
    (N.jmp x none (some u) wrt s = (.ok r, s') ∨ N.jmp x (some v) (some u) wrt s = (.ok r, s') → cnt s' = cnt s + d) ∧
    (N.vjp x none u wrt s = (.ok r, s') ∨ N.mjp x none (some u) wrt s = (.ok r, s') → cnt s' = cnt s + 1) ∧
    (N.vjp x (some v) u wrt s = (.ok r, s') ∨ N.mjp x (some v) (some u) wrt s = (.ok r, s') → cnt s' = cnt s) := by
  intro N d
  refine ⟨fun h => ?_, fun h => ?_, fun h => ?_, fun h => ?_⟩
  · rcases h with h | h
    · exact nest_jvp hc (id :: ids) x x u wrt hw s r s' h
    · exact nest_jvp hc (id :: ids) x v u wrt hw s r s' h
  · rcases h with h | h
    · exact nest_jmp hc (id :: ids) x x u wrt hw s r s' h
    · exact nest_jmp hc (id :: ids) x v u wrt hw s r s' h
  · rcases h with h | h
    · have h1 : Adds cnt 1 (N.forward x >>= fun v => N.vjp x (some v) u wrt) :=
        (nest_forward hc (id :: ids) x).bind fun v => nest_vjp hc (id :: ids) x v u wrt hw
      refine h1 s r s' (Eq.trans ?_ h)
      cases wrt with
      | input => rfl
      | weight => rfl
      | other => exact absurd rfl hw
    · have h1 : Adds cnt 1 (N.forward x >>= fun v => N.mjp x (some v) (some u) wrt) :=
        (nest_forward hc (id :: ids) x).bind fun v => nest_mjp hc (id :: ids) x v u wrt hw
      refine h1 s r s' (Eq.trans ?_ h)
      cases wrt with
      | input => rfl
      | weight => rfl
      | other => exact absurd rfl hw
  · rcases h with h | h
    · exact nest_vjp hc (id :: ids) x v u wrt hw s r s' h
    · exact nest_mjp hc (id :: ids) x v u wrt hw s r s' h

section Example
/-- The number counted: the length of a list of indices that no layer uses. -/
def blCount (st : Store Int) : Nat := match st.pidx 77 with | some t => t.shape.length | none => 0

/-- A layer that counts its calls, and passes everything on. -/
def blCounter : Mod Int where
  id := 5
  nParams := 0
  params := []
  forward := fun x s => (.ok x, { s with pidx := fun j => if j = 77 then some ⟨1 :: (match s.pidx 77 with | some t => t.shape | none => []), fun _ => 0⟩ else s.pidx j })
  jacobian := fun _ _ _ => Prog.throw .notImplemented
  jvp := fun _ _ u wrt => pure (if wrt = .input then some u else none)
  jmp := fun _ _ _ _ => Prog.throw .notImplemented
  jmjTp := fun _ _ _ _ _ _ _ => Prog.throw .notImplemented
  vjp := fun _ _ u wrt => pure (if wrt = .input then some u else none)
  mjp := fun _ _ _ _ => Prog.throw .notImplemented
  jTmjp := fun _ _ _ _ _ _ _ => Prog.throw .notImplemented

theorem blCounts : Counts blCount blCounter where
  forward := fun x s y s' h => by
    cases h
    simp only [blCount, if_true]
    cases s.pidx 77 <;> simp
  jvp := fun x v u wrt s r s' h => by cases h; rfl
  jmp := fun x v u wrt s r s' h => by cases h
  vjp := fun x v u wrt s r s' h => by cases h; rfl
  mjp := fun x v u wrt s r s' h => by cases h
  fmaps := fun s f => rfl

-- two Sequentials that hook their child: both methods return, `jvp` has called the layer twice and `vjp` once
def blStore : Store Int :=
  { param := fun _ => ⟨[], fun _ => 0⟩, fmaps := fun _ => some [], pidx := fun _ => none,
    hooks := fun i => if i = 5 then [3] else if i = 3 then [1] else [] }
example (x u : Tensor Int) :
    ((nest blCounter [1, 3]).jvp x none u .input blStore).1 = .ok (some u) ∧
    blCount ((nest blCounter [1, 3]).jvp x none u .input blStore).2 = 2 ∧
    ((nest blCounter [1, 3]).vjp x none u .input blStore).1 = .ok (some u) ∧
    blCount ((nest blCounter [1, 3]).vjp x none u .input blStore).2 = 1 := by
  have h1 : ((nest blCounter [1, 3]).jvp x none u .input blStore).1 = .ok (some u) := rfl
  have h2 : ((nest blCounter [1, 3]).vjp x none u .input blStore).1 = .ok (some u) := rfl
  have h := fun s' => C80_nested blCounts 1 [3] x u u .input (by simp) blStore (some u) s'
  exact ⟨h1, (h _).1 (.inl (Prod.ext h1 rfl)), h2, (h _).2.2.1 (.inl (Prod.ext h2 rfl))⟩
end Example

end Props
end NNJ
