import Verif.Proofs.ProgLemmas

/-!
Partial correctness: what holds of the result of a call whenever the call returns, for every state.
-/

namespace NNJ

/-- whatever `p` returns satisfies `Q` -/
def RPost {β : Type} (p : Res β) (Q : β → Prop) : Prop := ∀ b, p = .ok b → Q b

namespace RPost
variable {β γ : Type} {Q : β → Prop}

theorem ok {b : β} (h : Q b) : RPost (.ok b) Q := by rintro _ ⟨⟩; exact h
theorem pure {b : β} (h : Q b) : RPost (Pure.pure b) Q := ok h
theorem error {e : Err} : RPost (.error e : Res β) Q := by rintro _ ⟨⟩
theorem trivial {p : Res β} : RPost p fun _ => True := fun _ _ => True.intro
theorem mono {p : Res β} {P : β → Prop} (h : RPost p P) (hq : ∀ b, P b → Q b) : RPost p Q := fun b hb => hq b (h b hb)
theorem bind {p : Res γ} {f : γ → Res β} {P : γ → Prop} (hp : RPost p P) (hf : ∀ c, P c → RPost (f c) Q) : RPost (p >>= f) Q := by
  intro b hb
  cases p with
  | error e => cases hb
  | ok c => exact hf c (hp c rfl) b hb
theorem any {p : Res γ} {f : γ → Res β} (hf : ∀ c, RPost (f c) Q) : RPost (p >>= f) Q :=
  bind (P := fun _ => True) trivial fun c _ => hf c
theorem map {p : Res γ} {P : γ → Prop} {g : γ → β} (hp : RPost p P) (h : ∀ c, P c → Q (g c)) : RPost (g <$> p) Q := by
  intro b hb
  cases p with
  | error e => cases hb
  | ok c => cases hb; exact h c (hp c rfl)
theorem mapAny {p : Res γ} {g : γ → β} (h : ∀ c, Q (g c)) : RPost (g <$> p) Q :=
  map (P := fun _ => True) trivial fun c _ => h c
end RPost

/-- whatever `p` returns, in whatever state, satisfies `Q` -/
def Post {α β : Type} (p : Prog α β) (Q : β → Prop) : Prop := ∀ s b s', p s = (.ok b, s') → Q b

namespace Post
variable {α β γ : Type} {Q : β → Prop}

theorem pure {b : β} (h : Q b) : Post (Pure.pure b : Prog α β) Q := by rintro s _ _ ⟨⟩; exact h
theorem throw {e : Err} : Post (Prog.throw e : Prog α β) Q := by rintro s _ _ ⟨⟩
theorem trivial {p : Prog α β} : Post p fun _ => True := fun _ _ _ _ => True.intro
theorem mono {p : Prog α β} {P : β → Prop} (h : Post p P) (hq : ∀ b, P b → Q b) : Post p Q := fun s b s' hb => hq b (h s b s' hb)
theorem bind {p : Prog α γ} {f : γ → Prog α β} {P : γ → Prop} (hp : Post p P) (hf : ∀ c, P c → Post (f c) Q) : Post (p >>= f) Q := by
  intro s b s' hb
  rw [Prog.bind_run] at hb
  rcases h : p s with ⟨r, s1⟩
  rw [h] at hb
  cases r with
  | error e => cases hb
  | ok c => exact hf c (hp s c s1 h) s1 b s' hb
theorem any {p : Prog α γ} {f : γ → Prog α β} (hf : ∀ c, Post (f c) Q) : Post (p >>= f) Q :=
  bind (P := fun _ => True) trivial fun c _ => hf c
theorem lift {p : Res β} (h : RPost p Q) : Post (liftM p : Prog α β) Q := by
  intro s b s' hb
  exact h b (congrArg Prod.fst hb)
theorem of_res {p : Store α → Res β} (h : ∀ s, RPost (p s) Q) : Post (fun s => (p s, s)) Q := by
  intro s b s' hb
  exact h s b (congrArg Prod.fst hb)
/-- `need` returns only on tensors -/
theorem need {v : Option (Tensor α)} {f : Tensor α → Prog α β} (h : ∀ t, v = some t → Post (f t) Q) : Post (Prog.need v >>= f) Q := by
  cases v with
  | none => intro s b s' hb; cases hb
  | some t => exact h t rfl

theorem raises {p : Prog α β} (h : Post p fun _ => False) : p.Raises := by
  intro s
  rcases hp : p s with ⟨r, s'⟩
  cases r with
  | error e => exact ⟨e, s', rfl⟩
  | ok b => exact (h s b s' hp).elim
theorem of_raises {p : Prog α β} (h : p.Raises) : Post p Q := by
  intro s b s' hb
  obtain ⟨e, s'', he⟩ := h s
  rw [he] at hb; cases hb
end Post

theorem bind_inv {α β γ : Type} {q : Prog α γ} {f : γ → Prog α β} {s s' : Store α} {b : β} (h : (q >>= f) s = (.ok b, s')) :
    ∃ c s1, q s = (.ok c, s1) ∧ f c s1 = (.ok b, s') := by
  rw [Prog.bind_run] at h
  rcases hq : q s with ⟨rr, s1⟩
  rw [hq] at h
  cases rr with
  | error e => cases h
  | ok c => exact ⟨c, s1, rfl, h⟩

/-- decompose a stateless method body; the remaining goals are facts about returned values -/
macro "rpost" : tactic => `(tactic| repeat' (first
  | exact RPost.error
  | refine RPost.pure ?_
  | refine RPost.ok ?_
  | refine RPost.mapAny fun _ => ?_
  | refine RPost.any fun _ => ?_
  | split))

/-- the same for programs -/
macro "ppost" : tactic => `(tactic| repeat' (first
  | exact Post.throw
  | refine Post.pure ?_
  | refine Post.any fun _ => ?_
  | split))

end NNJ
