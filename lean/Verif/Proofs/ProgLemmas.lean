import Verif.Model.SkipConnection

/-! Equations for running `Prog` programs. -/

namespace NNJ
namespace Prog
variable {α β γ : Type}

@[simp] theorem pure_run (b : β) (s : Store α) : (Pure.pure b : Prog α β) s = (.ok b, s) := rfl
@[simp] theorem pure_run' (b : β) (s : Store α) : (Prog.pure b : Prog α β) s = (.ok b, s) := rfl
@[simp] theorem throw_run (e : Err) (s : Store α) : (Prog.throw e : Prog α β) s = (.error e, s) := rfl
@[simp] theorem liftM_run (r : Res β) (s : Store α) : (liftM r : Prog α β) s = (r, s) := rfl
@[simp] theorem monadLift_run (r : Res β) (s : Store α) : (monadLift r : Prog α β) s = (r, s) := rfl
@[simp] theorem lift_run (r : Res β) (s : Store α) : (Prog.lift r : Prog α β) s = (r, s) := rfl
@[simp] theorem modify_run (f : Store α → Store α) (s : Store α) :
    (Prog.modify f : Prog α Unit) s = (.ok (), f s) := rfl
@[simp] theorem read_run (f : Store α → β) (s : Store α) :
    (Prog.read f : Prog α β) s = (.ok (f s), s) := rfl

theorem bind_run (p : Prog α β) (f : β → Prog α γ) (s : Store α) :
    (p >>= f) s = match p s with
      | (.ok b, s') => f b s'
      | (.error e, s') => (.error e, s') := rfl

theorem bind_ok {p : Prog α β} {f : β → Prog α γ} {s s' : Store α} {b : β} (h : p s = (.ok b, s')) :
    (p >>= f) s = f b s' := by rw [bind_run, h]

theorem bind_error {p : Prog α β} {f : β → Prog α γ} {s s' : Store α} {e : Err}
    (h : p s = (.error e, s')) : (p >>= f) s = (.error e, s') := by rw [bind_run, h]

@[simp] theorem bind_pure_run (b : β) (f : β → Prog α γ) (s : Store α) :
    ((Pure.pure b : Prog α β) >>= f) s = f b s := rfl
@[simp] theorem bind_throw_run (e : Err) (f : β → Prog α γ) (s : Store α) :
    ((Prog.throw e : Prog α β) >>= f) s = (.error e, s) := rfl
@[simp] theorem bind_lift_ok (b : β) (f : β → Prog α γ) (s : Store α) :
    ((liftM (Except.ok b : Res β) : Prog α β) >>= f) s = f b s := rfl
@[simp] theorem bind_lift_error (e : Err) (f : β → Prog α γ) (s : Store α) :
    ((liftM (Except.error e : Res β) : Prog α β) >>= f) s = (.error e, s) := rfl
@[simp] theorem bind_modify_run (g : Store α → Store α) (f : Unit → Prog α γ) (s : Store α) :
    ((Prog.modify g : Prog α Unit) >>= f) s = f () (g s) := rfl
@[simp] theorem bind_read_run (g : Store α → β) (f : β → Prog α γ) (s : Store α) :
    ((Prog.read g : Prog α β) >>= f) s = f (g s) s := rfl

@[simp] theorem assert_true : (Prog.assert true : Prog α Unit) = Prog.pure () := rfl
@[simp] theorem assert_false : (Prog.assert false : Prog α Unit) = Prog.throw .assertion := rfl
@[simp] theorem need_some (t : Tensor α) : Prog.need (some t) = Prog.pure t := rfl
@[simp] theorem need_none : Prog.need (none : Option (Tensor α)) = Prog.throw .type := rfl
@[simp] theorem bind_pure_run' (b : β) (f : β → Prog α γ) (s : Store α) :
    ((Prog.pure b : Prog α β) >>= f) s = f b s := rfl

/-- A program never returns normally. -/
def Raises (p : Prog α β) : Prop := ∀ s, ∃ e s', p s = (.error e, s')

theorem Raises.bind_left {p : Prog α β} (h : Raises p) (f : β → Prog α γ) : Raises (p >>= f) := by
  intro s
  obtain ⟨e, s', hs⟩ := h s
  exact ⟨e, s', bind_error hs⟩

theorem Raises.bind_right (p : Prog α β) {f : β → Prog α γ} (h : ∀ b, Raises (f b)) :
    Raises (p >>= f) := by
  intro s
  rcases hp : p s with ⟨r, s'⟩
  cases r with
  | error e => exact ⟨e, s', bind_error hp⟩
  | ok b =>
    obtain ⟨e, s'', hs⟩ := h b s'
    exact ⟨e, s'', by rw [bind_ok hp, hs]⟩

theorem Raises.throw (e : Err) : Raises (Prog.throw e : Prog α β) := fun s => ⟨e, s, rfl⟩

end Prog

namespace Res
variable {β γ : Type}
@[simp] theorem bind_ok (b : β) (f : β → Res γ) : ((Except.ok b : Res β) >>= f) = f b := rfl
@[simp] theorem bind_error (e : Err) (f : β → Res γ) : ((Except.error e : Res β) >>= f) = .error e := rfl
@[simp] theorem pure_eq (b : β) : (Pure.pure b : Res β) = .ok b := rfl
@[simp] theorem map_ok (f : β → γ) (b : β) : (f <$> (Except.ok b : Res β)) = .ok (f b) := rfl
@[simp] theorem map_error (f : β → γ) (e : Err) : (f <$> (Except.error e : Res β)) = .error e := rfl
end Res

end NNJ
