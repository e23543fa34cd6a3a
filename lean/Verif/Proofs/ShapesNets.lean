import Verif.Proofs.ShapesLayers

/-!
# Helper lemmas: the shapes and exceptions of Sequential and SkipConnection do not depend on the entries
-/

namespace NNJ
namespace Shp
open Tensor

variable {α β : Type}

theorem SameVal.cases {t : PyVal α} {u : PyVal β} (h : SameVal t u) :
    (t = .none ∧ u = .none) ∨ (∃ s d d', t = .tensor ⟨s, d⟩ ∧ u = .tensor ⟨s, d'⟩) ∨ ∃ vs ws, t = .list vs ∧ u = .list ws ∧ SameVals vs ws := by
  cases t <;> cases u <;> simp only [SameVal] at h
  · exact .inl ⟨rfl, rfl⟩
  · obtain ⟨s, d, d', rfl, rfl⟩ := SameShape.cases h
    exact .inr (.inl ⟨s, d, d', rfl, rfl⟩)
  · exact .inr (.inr ⟨_, _, rfl, rfl, h⟩)

theorem sameVal_none : SameVal (.none : PyVal α) (.none : PyVal β) := by rw [SameVal]; trivial
theorem sameVal_tensor {t : Tensor α} {u : Tensor β} (h : SameShape t u) : SameVal (.tensor t) (.tensor u) := by rw [SameVal]; exact h
theorem sameVal_list {vs : List (PyVal α)} {ws : List (PyVal β)} (h : SameVals vs ws) : SameVal (.list vs) (.list ws) := by rw [SameVal]; exact h
theorem sameVals_nil : SameVals ([] : List (PyVal α)) ([] : List (PyVal β)) := by rw [SameVals]; trivial
theorem sameVals_cons {v : PyVal α} {w : PyVal β} {vs : List (PyVal α)} {ws : List (PyVal β)} (h : SameVal v w) (hs : SameVals vs ws) :
    SameVals (v :: vs) (w :: ws) := by rw [SameVals]; exact ⟨h, hs⟩

theorem SameVals.cases {vs : List (PyVal α)} {ws : List (PyVal β)} (h : SameVals vs ws) :
    (vs = [] ∧ ws = []) ∨ ∃ v w vs' ws', vs = v :: vs' ∧ ws = w :: ws' ∧ SameVal v w ∧ SameVals vs' ws' := by
  cases vs <;> cases ws <;> simp only [SameVals] at h
  · exact .inl ⟨rfl, rfl⟩
  · exact .inr ⟨_, _, _, _, rfl, rfl, h⟩

theorem sameVal_ofOption {t : Option (Tensor α)} {u : Option (Tensor β)} (h : SameOpt t u) : SameVal (PyVal.ofOption t) (PyVal.ofOption u) := by
  sopt h
  · exact sameVal_none
  · exact sameVal_tensor rfl

theorem toOption_same {v : PyVal α} {w : PyVal β} (h : SameVal v w) : SameRes SameOpt v.toOption w.toOption := by
  obtain ⟨rfl, rfl⟩ | ⟨s, d, d', rfl, rfl⟩ | ⟨_, _, rfl, rfl, _⟩ := SameVal.cases h
  · exact ok trivial
  · exact ok rfl
  · exact err _

theorem toTensor_same {v : PyVal α} {w : PyVal β} (h : SameVal v w) : SameRes SameShape v.toTensor w.toTensor := by
  obtain ⟨rfl, rfl⟩ | ⟨s, d, d', rfl, rfl⟩ | ⟨_, _, rfl, rfl, _⟩ := SameVal.cases h
  · exact err _
  · exact ok rfl
  · exact err _

theorem mapM_toTensor : ∀ {vs : List (PyVal α)} {ws : List (PyVal β)}, SameVals vs ws →
    SameRes SameList (vs.mapM PyVal.toTensor) (ws.mapM PyVal.toTensor)
  | [], ws, h => by
    obtain ⟨_, rfl⟩ | ⟨_, _, _, _, h1, _⟩ := SameVals.cases h
    · simp only [List.mapM_nil]
      exact pure' .nil
    · simp at h1
  | v :: vs, ws, h => by
    obtain ⟨h1, _⟩ | ⟨_, _, _, _, h1, rfl, h2, h3⟩ := SameVals.cases h
    · simp at h1
    · cases h1
      simp only [List.mapM_cons]
      exact bind (toTensor_same h2) fun _ _ ha => bind (mapM_toTensor h3) fun _ _ hb => pure' (.cons ha hb)

section prog
variable {A B C D : Type} {R : A → B → Prop} {S : C → D → Prop}

theorem ppure {a : A} {b : B} (h : R a b) : SameProg R (pure a : Prog α A) (pure b : Prog β B) := fun _ _ hs => ⟨h, hs⟩

theorem pthrow (e : Err) : SameProg R (Prog.throw e : Prog α A) (Prog.throw e : Prog β B) := fun _ _ hs => ⟨rfl, hs⟩

theorem plift {p : Res A} {q : Res B} (h : SameRes R p q) : SameProg R (liftM p : Prog α A) (liftM q : Prog β B) := fun _ _ hs => ⟨h, hs⟩

theorem pbind {p : Prog α A} {q : Prog β B} {f : A → Prog α C} {g : B → Prog β D} (h : SameProg R p q)
    (hf : ∀ a b, R a b → SameProg S (f a) (g b)) : SameProg S (p >>= f) (q >>= g) := by
  intro s s' hs
  obtain ⟨h1, h2⟩ := h s s' hs
  show SameRes S (Prog.bind p f s).1 (Prog.bind q g s').1 ∧ SameStore (Prog.bind p f s).2 (Prog.bind q g s').2
  unfold Prog.bind
  rcases hp : p s with ⟨r, t⟩
  rcases hq : q s' with ⟨r', t'⟩
  rw [hp, hq] at h1 h2
  cases r <;> cases r'
  · exact ⟨h1, h2⟩
  · exact h1.elim
  · exact h1.elim
  · exact hf _ _ h1 _ _ h2

theorem pbindT {p : Prog α (Tensor α)} {q : Prog β (Tensor β)} {f : Tensor α → Prog α C} {g : Tensor β → Prog β D} (h : SameProg SameShape p q)
    (hf : ∀ s d d', SameProg S (f ⟨s, d⟩) (g ⟨s, d'⟩)) : SameProg S (p >>= f) (q >>= g) :=
  pbind h fun a b hab => by
    obtain ⟨s, d, d', rfl, rfl⟩ := SameShape.cases hab
    exact hf s d d'

theorem pbindO {p : Prog α (Option (Tensor α))} {q : Prog β (Option (Tensor β))} {f : Option (Tensor α) → Prog α C}
    {g : Option (Tensor β) → Prog β D} (h : SameProg SameOpt p q) (hf : ∀ a b, SameOpt a b → SameProg S (f a) (g b)) :
    SameProg S (p >>= f) (q >>= g) := pbind h hf

theorem pbindE {p : Prog α A} {q : Prog β A} {f : A → Prog α C} {g : A → Prog β D} (h : SameProg Eq p q) (hf : ∀ a, SameProg S (f a) (g a)) :
    SameProg S (p >>= f) (q >>= g) :=
  pbind h fun a b hab => by
    cases hab
    exact hf a

theorem rrefl (r : Res A) : SameRes Eq r r := by
  cases r
  · exact err _
  · exact ok rfl

theorem pneed {v : Option (Tensor α)} {w : Option (Tensor β)} (h : SameOpt v w) : SameProg SameShape (Prog.need v) (Prog.need w) := by
  sopt h
  · exact pthrow _
  · exact ppure rfl

theorem passert (c : Bool) : SameProg Eq (Prog.assert c : Prog α Unit) (Prog.assert c : Prog β Unit) := by
  cases c
  · exact pthrow _
  · exact ppure rfl

theorem passertP {c c' : Prop} [Decidable c] [Decidable c'] (h : c ↔ c') :
    SameProg Eq (Prog.assert (decide c) : Prog α Unit) (Prog.assert (decide c') : Prog β Unit) := by
  simp only [h]
  exact passert _

end prog

section mods
variable {m : Mod α} {m' : Mod β} {ms : List (Mod α)} {ms' : List (Mod β)}

theorem runHook_same {v : Tensor α} {w : Tensor β} (h : SameShape v w) (i : Nat) : SameProg Eq (Mod.runHook v i) (Mod.runHook w i) := by
  intro s s' hs
  have hf := hs.fmaps i
  unfold Mod.runHook
  cases h1 : s.fmaps i <;> cases h2 : s'.fmaps i <;> rw [h1, h2] at hf
  · exact ⟨rfl, hs⟩
  · simp at hf
  · simp at hf
  · refine ⟨rfl, hs.param, fun j => ?_, hs.hooks⟩
    simp only [Option.map_some, Option.some.injEq] at hf
    dsimp only
    split
    · simp only [Option.map_some, List.map_append, hf, List.map_cons, List.map_nil, show v.shape = w.shape from h]
    · exact hs.fmaps j

theorem runHooks_same {v : Tensor α} {w : Tensor β} (h : SameShape v w) : ∀ is : List Nat, SameProg Eq (Mod.runHooks v is) (Mod.runHooks w is)
  | [] => fun _ _ hs => ⟨rfl, hs⟩
  | i :: is => pbindE (runHook_same h i) fun _ => runHooks_same h is

theorem call_same (hm : SameMod m m') {x : Tensor α} {x' : Tensor β} (hx : SameShape x x') : SameProg SameShape (m.call x) (m'.call x') := by
  unfold Mod.call
  refine pbind (hm.forward hx) fun a b hab => ?_
  refine pbindE (p := Prog.read fun s => s.hooks m.id) (q := Prog.read fun s => s.hooks m'.id) (fun s s' hs => ⟨?_, hs⟩) fun hk => ?_
  · show s.hooks m.id = s'.hooks m'.id
    rw [hs.hooks, hm.id]
  · exact pbindE (runHooks_same hab hk) fun _ => ppure hab

theorem toMod_same {L : Store α → PureLayer α} {L' : Store β → PureLayer β} (id n : Nat) (ps : List Nat)
    (h : ∀ s s', SameStore s s' → SameLayer (L s) (L' s')) : SameMod (PureLayer.toMod L id n ps) (PureLayer.toMod L' id n ps) where
  id := rfl
  nParams := rfl
  params := rfl
  forward hx s s' hs := by
    obtain ⟨r, d, d', rfl, rfl⟩ := SameShape.cases hx
    exact ⟨(h s s' hs).forward, hs⟩
  jacobian wrt hx hv s s' hs := by
    obtain ⟨r, d, d', rfl, rfl⟩ := SameShape.cases hx
    exact ⟨(h s s' hs).jacobian wrt hv, hs⟩
  jvp wrt hx hv hu s s' hs := by
    obtain ⟨r, d, d', rfl, rfl⟩ := SameShape.cases hx
    obtain ⟨r, d, d', rfl, rfl⟩ := SameShape.cases hu
    exact ⟨(h s s' hs).jvp wrt hv, hs⟩
  jmp wrt hx hv hu s s' hs := by
    obtain ⟨r, d, d', rfl, rfl⟩ := SameShape.cases hx
    exact ⟨(h s s' hs).jmp wrt hv hu, hs⟩
  jmjTp wrt fd td db hx hv hu s s' hs := by
    obtain ⟨r, d, d', rfl, rfl⟩ := SameShape.cases hx
    exact ⟨bind (toOption_same hu) fun _ _ hu => (h s s' hs).jmjTp wrt fd td db hv hu, hs⟩
  vjp wrt hx hv hu s s' hs := by
    obtain ⟨r, d, d', rfl, rfl⟩ := SameShape.cases hx
    obtain ⟨r, d, d', rfl, rfl⟩ := SameShape.cases hu
    exact ⟨(h s s' hs).vjp wrt hv, hs⟩
  mjp wrt hx hv hu s s' hs := by
    obtain ⟨r, d, d', rfl, rfl⟩ := SameShape.cases hx
    exact ⟨(h s s' hs).mjp wrt hv hu, hs⟩
  jTmjp wrt fd td db hx hv hu s s' hs := by
    obtain ⟨r, d, d', rfl, rfl⟩ := SameShape.cases hx
    exact ⟨bind ((h s s' hs).jTmjp wrt fd td db hv hu) fun _ _ h => pure' (sameVal_ofOption h), hs⟩

/-- lists of objects that do the same -/
abbrev SameMods (ms : List (Mod α)) (ms' : List (Mod β)) : Prop := List.Forall₂ SameMod ms ms'

theorem nParams_same (h : SameMods ms ms') : Sequential.nParams ms = Sequential.nParams ms' := by
  unfold Sequential.nParams
  induction h with
  | nil => rfl
  | cons h _ ih => simp only [List.map_cons, List.sum_cons, ih, h.nParams]

theorem params_same (h : SameMods ms ms') : (ms.map Mod.params).flatten = (ms'.map Mod.params).flatten := by
  induction h with
  | nil => rfl
  | cons h _ ih => simp only [List.map_cons, List.flatten_cons, ih, h.params]

theorem child_same (h : SameMods ms ms') (k : Nat) : SameProg SameMod (Sequential.child ms k) (Sequential.child ms' k) := by
  intro s s' hs
  unfold Sequential.child
  have : Option.Rel SameMod ms[k]? ms'[k]? := by
    induction h generalizing k with
    | nil => exact .none
    | cons h _ ih =>
      cases k with
      | zero => exact .some h
      | succ k => exact ih k
  cases h1 : ms[k]? <;> cases h2 : ms'[k]? <;> rw [h1, h2] at this <;> cases this
  · exact ⟨rfl, hs⟩
  · exact ⟨by assumption, hs⟩

theorem fmap_same (id k : Nat) : SameProg SameShape (Sequential.fmap id k : Prog α _) (Sequential.fmap id k : Prog β _) := by
  intro s s' hs
  have hf := hs.fmaps id
  unfold Sequential.fmap
  cases h1 : s.fmaps id <;> cases h2 : s'.fmaps id <;> rw [h1, h2] at hf
  · exact ⟨rfl, hs⟩
  · simp at hf
  · simp at hf
  · simp only [Option.map_some, Option.some.injEq] at hf
    have hk := congrArg (fun l => l[k]?) hf
    simp only [List.getElem?_map] at hk
    rename_i l l'
    dsimp only
    cases h3 : l[k]? <;> cases h4 : l'[k]? <;> rw [h3, h4] at hk
    · exact ⟨rfl, hs⟩
    · simp at hk
    · simp at hk
    · exact ⟨show SameShape _ _ by simpa [SameShape] using hk, hs⟩

theorem run_same (h : SameMods ms ms') : ∀ {s : List Nat} {d : Nat → α} {e : Nat → β},
    SameProg SameShape (Sequential.run ms ⟨s, d⟩) (Sequential.run ms' ⟨s, e⟩) := by
  induction h with
  | nil => exact ppure rfl
  | cons h _ ih => exact pbindT (call_same h rfl) fun _ _ _ => ih

theorem seq_forward (id : Nat) (b : Bool) (h : SameMods ms ms') {s : List Nat} {d : Nat → α} {e : Nat → β} :
    SameProg SameShape (Sequential.forward id b ms ⟨s, d⟩) (Sequential.forward id b ms' ⟨s, e⟩) := by
  unfold Sequential.forward
  cases b
  · exact run_same h
  · refine pbindE (fun s s' hs => ⟨rfl, hs.param, fun j => ?_, hs.hooks⟩) fun _ => run_same h
    show Option.map _ (if j = id then _ else _) = Option.map _ (if j = id then _ else _)
    split
    · rfl
    · exact hs.fmaps j

theorem seq_getVal (id : Nat) (b : Bool) (h : SameMods ms ms') {s : List Nat} {d : Nat → α} {e : Nat → β} {v v'} (hv : SameOpt v v') :
    SameProg SameShape (Sequential.getVal id b ms ⟨s, d⟩ v) (Sequential.getVal id b ms' ⟨s, e⟩ v') := by
  sopt hv
  · exact seq_forward id b h
  · exact ppure rfl

theorem jvpInput_same (h : SameMods ms ms') : ∀ {s : List Nat} {d : Nat → α} {e : Nat → β} {r : List Nat} {c : Nat → α} {c' : Nat → β},
    SameProg SameShape (Sequential.jvpInput ms ⟨s, d⟩ ⟨r, c⟩) (Sequential.jvpInput ms' ⟨s, e⟩ ⟨r, c'⟩) := by
  induction h with
  | nil => exact ppure rfl
  | cons h _ ih =>
    exact pbindT (call_same h rfl) fun _ _ _ => pbindO (h.jvp _ rfl rfl rfl) fun _ _ hr => pbindT (pneed hr) fun _ _ _ => ih

theorem jmpInput_same (h : SameMods ms ms') : ∀ {s : List Nat} {d : Nat → α} {e : Nat → β} {r : List Nat} {c : Nat → α} {c' : Nat → β},
    SameProg SameShape (Sequential.jmpInput ms ⟨s, d⟩ ⟨r, c⟩) (Sequential.jmpInput ms' ⟨s, e⟩ ⟨r, c'⟩) := by
  induction h with
  | nil => exact ppure rfl
  | cons h _ ih =>
    exact pbindT (call_same h rfl) fun _ _ _ => pbindO (h.jmp _ rfl rfl rfl) fun _ _ hr => pbindT (pneed hr) fun _ _ _ => ih

section
variable [Add α] [Add β]

theorem accum_same {a a' n n'} (h : SameOpt a a') (h' : SameOpt n n') : SameRes SameOpt (Sequential.accum (α := α) a n) (Sequential.accum (α := β) a' n') := by
  unfold Sequential.accum
  sopt h <;> sopt h'
  · exact ok trivial
  · exact ok rfl
  · exact ok rfl
  · exact mapT addInPlace

omit [Add α] [Add β] in
theorem through_same {a : Option (Tensor α)} {a' : Option (Tensor β)} (h : SameOpt a a') {f : Tensor α → Prog α (Option (Tensor α))} {g : Tensor β → Prog β (Option (Tensor β))}
    (hf : ∀ s d d', SameProg SameOpt (f ⟨s, d⟩) (g ⟨s, d'⟩)) : SameProg SameOpt (Sequential.through a f) (Sequential.through a' g) := by
  sopt h
  · exact ppure trivial
  · exact hf _ _ _

/-- results of the loops of `jvp` and `jmp` wrt weight -/
def SamePair (a : Option (Tensor α) × Nat) (b : Option (Tensor β) × Nat) : Prop := SameOpt a.1 b.1 ∧ a.2 = b.2

theorem jvpWeight_same {r : List Nat} {c : Nat → α} {c' : Nat → β} (h : SameMods ms ms') : ∀ {s : List Nat} {d : Nat → α} {e : Nat → β} (p : Nat) {a a'}, SameOpt a a' →
    SameProg SamePair (Sequential.jvpWeight ⟨r, c⟩ ms ⟨s, d⟩ p a) (Sequential.jvpWeight ⟨r, c'⟩ ms' ⟨s, e⟩ p a') := by
  induction h with
  | nil =>
    intro s d e p a a' ha
    exact ppure ⟨ha, rfl⟩
  | cons h _ ih =>
    intro s d e p a a' ha
    unfold Sequential.jvpWeight
    rw [h.nParams]
    exact pbindT (call_same h rfl) fun _ _ _ => pbindO (through_same ha fun _ _ _ => h.jvp _ rfl rfl rfl) fun _ _ ha =>
      pbindT (plift (slice _ _ _)) fun _ _ _ => pbindO (h.jvp _ rfl rfl rfl) fun _ _ hf => pbindO (plift (accum_same ha hf)) fun _ _ ha => ih _ ha

theorem jmpWeight_same {r : List Nat} {c : Nat → α} {c' : Nat → β} (h : SameMods ms ms') : ∀ {s : List Nat} {d : Nat → α} {e : Nat → β} (p : Nat) {a a'}, SameOpt a a' →
    SameProg SamePair (Sequential.jmpWeight ⟨r, c⟩ ms ⟨s, d⟩ p a) (Sequential.jmpWeight ⟨r, c'⟩ ms' ⟨s, e⟩ p a') := by
  induction h with
  | nil =>
    intro s d e p a a' ha
    exact ppure ⟨ha, rfl⟩
  | cons h _ ih =>
    intro s d e p a a' ha
    unfold Sequential.jmpWeight
    rw [h.nParams]
    exact pbindT (call_same h rfl) fun _ _ _ => pbindO (through_same ha fun _ _ _ => h.jmp _ rfl rfl rfl) fun _ _ ha =>
      pbindT (plift (slice _ _ _)) fun _ _ _ => pbindO (h.jmp _ rfl rfl rfl) fun _ _ hf => pbindO (plift (accum_same ha hf)) fun _ _ ha => ih _ ha

theorem seq_jvp (h : SameMods ms ms') {s : List Nat} {d : Nat → α} {e : Nat → β} {r : List Nat} {c : Nat → α} {c' : Nat → β} {v v'} (wrt) :
    SameProg SameOpt (Sequential.jvp ms ⟨s, d⟩ v ⟨r, c⟩ wrt) (Sequential.jvp ms' ⟨s, e⟩ v' ⟨r, c'⟩ wrt) := by
  unfold Sequential.jvp
  refine pbindE (passert _) fun _ => ?_
  cases wrt
  · exact pbindT (jvpInput_same h) fun _ _ _ => ppure rfl
  · refine pbind (jvpWeight_same h 0 (a := none) (a' := none) trivial) fun a b hab => ?_
    obtain ⟨a, p⟩ := a
    obtain ⟨b, p'⟩ := b
    obtain ⟨h1, h2⟩ := hab
    cases h2
    dsimp only
    rw [nParams_same h]
    exact pbindE (passert _) fun _ => ppure h1
  · exact ppure trivial

end

theorem catOrNone_same (i : Nat) {ts : List (Tensor α)} {us : List (Tensor β)} (h : SameList ts us) :
    SameRes SameOpt (Sequential.catOrNone i ts) (Sequential.catOrNone i us) := by
  have hl : ts.length = us.length := List.Forall₂.length_eq h
  unfold Sequential.catOrNone
  rw [hl]
  split
  · exact mapT (cat i h)
  · exact ok trivial

theorem toList_same {a : Option (Tensor α)} {b : Option (Tensor β)} (h : SameOpt a b) {ts us} (h' : SameList ts us) : SameList (a.toList ++ ts) (b.toList ++ us) := by
  sopt h
  · exact h'
  · exact .cons rfl h'

theorem vjpInput_same (id : Nat) (h : SameMods ms ms') : ∀ (k : Nat) {r : List Nat} {c : Nat → α} {c' : Nat → β},
    SameProg SameShape (Sequential.vjpInput id ms k ⟨r, c⟩) (Sequential.vjpInput id ms' k ⟨r, c'⟩)
  | 0, _, _, _ => ppure rfl
  | k + 1, _, _, _ => pbind (child_same h k) fun _ _ hm => pbindT (fmap_same _ _) fun _ _ _ => pbindT (fmap_same _ _) fun _ _ _ =>
      pbindO (hm.vjp _ rfl rfl rfl) fun _ _ hr => pbindT (pneed hr) fun _ _ _ => vjpInput_same id h k

theorem mjpInput_same (id : Nat) (h : SameMods ms ms') : ∀ (k : Nat) {r : List Nat} {c : Nat → α} {c' : Nat → β},
    SameProg SameShape (Sequential.mjpInput id ms k ⟨r, c⟩) (Sequential.mjpInput id ms' k ⟨r, c'⟩)
  | 0, _, _, _ => ppure rfl
  | k + 1, _, _, _ => pbind (child_same h k) fun _ _ hm => pbindT (fmap_same _ _) fun _ _ _ => pbindT (fmap_same _ _) fun _ _ _ =>
      pbindO (hm.mjp _ rfl rfl rfl) fun _ _ hr => pbindT (pneed hr) fun _ _ _ => mjpInput_same id h k

theorem vjpWeight_same (id : Nat) (h : SameMods ms ms') : ∀ (k : Nat) {r : List Nat} {c : Nat → α} {c' : Nat → β} {vs ws}, SameList vs ws →
    SameProg SameList (Sequential.vjpWeight id ms k ⟨r, c⟩ vs) (Sequential.vjpWeight id ms' k ⟨r, c'⟩ ws)
  | 0, _, _, _, _, _, hv => ppure hv
  | k + 1, _, _, _, _, _, hv => pbind (child_same h k) fun _ _ hm => pbindT (fmap_same _ _) fun _ _ _ => pbindT (fmap_same _ _) fun _ _ _ =>
      pbindO (hm.vjp _ rfl rfl rfl) fun _ _ hr => by
        dsimp only
        split
        · exact ppure (toList_same hr hv)
        · exact pbindO (hm.vjp _ rfl rfl rfl) fun _ _ hi => pbindT (pneed hi) fun _ _ _ => vjpWeight_same id h k (toList_same hr hv)

theorem mjpWeight_same (id : Nat) (h : SameMods ms ms') : ∀ (k : Nat) {r : List Nat} {c : Nat → α} {c' : Nat → β} {vs ws}, SameList vs ws →
    SameProg SameList (Sequential.mjpWeight id ms k ⟨r, c⟩ vs) (Sequential.mjpWeight id ms' k ⟨r, c'⟩ ws)
  | 0, _, _, _, _, _, hv => ppure hv
  | k + 1, _, _, _, _, _, hv => pbind (child_same h k) fun _ _ hm => pbindT (fmap_same _ _) fun _ _ _ => pbindT (fmap_same _ _) fun _ _ _ =>
      pbindO (hm.mjp _ rfl rfl rfl) fun _ _ hr => by
        dsimp only
        split
        · exact ppure (toList_same hr hv)
        · exact pbindO (hm.mjp _ rfl rfl rfl) fun _ _ hi => pbindT (pneed hi) fun _ _ _ => mjpWeight_same id h k (toList_same hr hv)

theorem seq_vjp (id : Nat) (b : Bool) (h : SameMods ms ms') {s : List Nat} {d : Nat → α} {e : Nat → β} {r : List Nat} {c : Nat → α} {c' : Nat → β} {v v'} (wrt)
    (hv : SameOpt v v') : SameProg SameOpt (Sequential.vjp id b ms ⟨s, d⟩ v ⟨r, c⟩ wrt) (Sequential.vjp id b ms' ⟨s, e⟩ v' ⟨r, c'⟩ wrt) := by
  unfold Sequential.vjp
  rw [List.Forall₂.length_eq h]
  refine pbindE (passert _) fun _ => pbindT (seq_getVal id b h hv) fun _ _ _ => ?_
  cases wrt
  · exact pbindT (vjpInput_same id h _) fun _ _ _ => ppure rfl
  · exact pbind (vjpWeight_same id h _ .nil) fun _ _ hl => plift (catOrNone_same _ hl)
  · exact ppure trivial

theorem eyeFor_same [Zero α] [One α] [Zero β] [One β] {s : List Nat} {d : Nat → α} {e : Nat → β} :
    SameRes SameShape (Sequential.eyeFor (⟨s, d⟩ : Tensor α)) (Sequential.eyeFor (⟨s, e⟩ : Tensor β)) := by
  unfold Sequential.eyeFor
  dsimp only
  split <;> rfl

theorem seq_mjp [Zero α] [One α] [Zero β] [One β] (id : Nat) (b : Bool) (h : SameMods ms ms') {s : List Nat} {d : Nat → α} {e : Nat → β} {v v' u u'} (wrt)
    (hv : SameOpt v v') (hu : SameOpt u u') :
    SameProg SameOpt (Sequential.mjp id b ms ⟨s, d⟩ v u wrt) (Sequential.mjp id b ms' ⟨s, e⟩ v' u' wrt) := by
  unfold Sequential.mjp
  rw [List.Forall₂.length_eq h]
  refine pbindE (passert _) fun _ => pbindT (seq_getVal id b h hv) fun _ _ _ => pbindT (plift ?_) fun _ _ _ => ?_
  · sopt hu
    · exact eyeFor_same
    · exact ok rfl
  cases wrt
  · exact pbindT (mjpInput_same id h _) fun _ _ _ => ppure rfl
  · exact pbind (mjpWeight_same id h _ .nil) fun _ _ hl => plift (catOrNone_same _ hl)
  · exact ppure trivial

theorem seq_jmp [Zero α] [One α] [Add α] [Zero β] [One β] [Add β] (id : Nat) (b : Bool) (h : SameMods ms ms') {s : List Nat} {d : Nat → α} {e : Nat → β}
    {v v' u u'} (wrt) (hv : SameOpt v v') (hu : SameOpt u u') :
    SameProg SameOpt (Sequential.jmp id b ms ⟨s, d⟩ v u wrt) (Sequential.jmp id b ms' ⟨s, e⟩ v' u' wrt) := by
  unfold Sequential.jmp
  refine pbindE (passert _) fun _ => ?_
  sopt hu
  · exact seq_mjp id b h wrt hv trivial
  cases wrt
  · exact pbindT (jmpInput_same h) fun _ _ _ => ppure rfl
  · refine pbind (jmpWeight_same h 0 (a := none) (a' := none) trivial) fun a b hab => ?_
    obtain ⟨a, p⟩ := a
    obtain ⟨b, p'⟩ := b
    obtain ⟨h1, h2⟩ := hab
    cases h2
    dsimp only
    rw [nParams_same h]
    exact pbindE (passert _) fun _ => ppure h1
  · exact ppure trivial

theorem jmjTpInput_same (id n : Nat) (fd td db : Bool) (h : SameMods ms ms') : ∀ (k : Nat) {u u'}, SameVal u u' →
    SameProg SameVal (Sequential.jmjTpInput id n fd td db ms k u) (Sequential.jmjTpInput id n fd td db ms' k u') := by
  induction h with
  | nil => exact fun k u u' hu => ppure hu
  | cons h _ ih =>
    exact fun k u u' hu => pbindT (fmap_same _ _) fun _ _ _ => pbindT (fmap_same _ _) fun _ _ _ =>
      pbindO (h.jmjTp _ _ _ _ rfl rfl hu) fun _ _ hr => ih _ (sameVal_ofOption hr)

theorem splitBlocks_same (fd : Bool) {r : List Nat} {c : Nat → α} {c' : Nat → β} (h : SameMods ms ms') : ∀ p : Nat,
    SameRes (fun a b => SameVals a.1 b.1 ∧ a.2 = b.2) (Sequential.splitBlocks ⟨r, c⟩ fd ms p) (Sequential.splitBlocks ⟨r, c'⟩ fd ms' p) := by
  induction h with
  | nil => exact fun p => ok ⟨sameVals_nil, rfl⟩
  | cons h _ ih =>
    intro p
    unfold Sequential.splitBlocks
    rw [h.nParams]
    split
    · exact ih p
    · refine bindT (slice _ _ _) fun _ _ _ => ?_
      dsimp only
      split
      · exact bindT (ok rfl) fun _ _ _ => bind (ih _) fun _ _ hr => pure' (by exact ⟨sameVals_cons (sameVal_tensor rfl) hr.1, hr.2⟩)
      · exact bindT (slice _ _ _) fun _ _ _ => bind (ih _) fun _ _ hr => pure' (by exact ⟨sameVals_cons (sameVal_tensor rfl) hr.1, hr.2⟩)

theorem listGet_same {vs ws} (h : SameVals vs ws) (k : Nat) : SameProg SameVal (Sequential.listGet vs k : Prog α _) (Sequential.listGet ws k : Prog β _) := by
  intro s s' hs
  unfold Sequential.listGet
  induction vs generalizing ws k with
  | nil =>
    obtain ⟨_, rfl⟩ | ⟨_, _, _, _, h1, _⟩ := SameVals.cases h
    · exact ⟨rfl, hs⟩
    · simp at h1
  | cons v vs ih =>
    obtain ⟨h1, _⟩ | ⟨_, _, _, _, h1, rfl, h2, h3⟩ := SameVals.cases h
    · simp at h1
    · cases h1
      cases k with
      | zero => exact ⟨h2, hs⟩
      | succ k => exact ih h3 k

theorem jmjTpWeight_same [Add α] [Add β] (id n : Nat) (fd td db : Bool) {vs ws} (hb : SameVals vs ws) (h : SameMods ms ms') : ∀ (k kp : Nat) {a a'}, SameOpt a a' →
    SameProg SameOpt (Sequential.jmjTpWeight id n fd td db vs ms k kp a) (Sequential.jmjTpWeight id n fd td db ws ms' k kp a') := by
  induction h with
  | nil => exact fun k kp a a' ha => ppure ha
  | cons h _ ih =>
    intro k kp a a' ha
    unfold Sequential.jmjTpWeight
    rw [h.nParams]
    refine pbindO (through_same ha fun _ _ _ => pbindT (fmap_same _ _) fun _ _ _ => pbindT (fmap_same _ _) fun _ _ _ =>
      h.jmjTp _ _ _ _ rfl rfl (sameVal_tensor rfl)) fun _ _ ha => ?_
    split
    · exact ih _ _ ha
    · exact pbindT (fmap_same _ _) fun _ _ _ => pbindT (fmap_same _ _) fun _ _ _ => pbind (listGet_same hb kp) fun _ _ hv =>
        pbindO (h.jmjTp _ _ _ _ rfl rfl hv) fun _ _ hf => pbindO (plift (accum_same ha hf)) fun _ _ ha => ih _ _ ha

theorem seq_jmjTp [Zero α] [One α] [Add α] [Zero β] [One β] [Add β] (id : Nat) (b : Bool) (h : SameMods ms ms') {s : List Nat} {d : Nat → α} {e : Nat → β}
    {v v' u u'} (wrt) (fd td db : Bool) (hv : SameOpt v v') (hu : SameVal u u') :
    SameProg SameOpt (Sequential.jmjTp id b ms ⟨s, d⟩ v u wrt fd td db) (Sequential.jmjTp id b ms' ⟨s, e⟩ v' u' wrt fd td db) := by
  unfold Sequential.jmjTp
  rw [List.Forall₂.length_eq h, nParams_same h]
  refine pbindE (passert _) fun _ => pbindT (seq_getVal id b h hv) fun _ _ _ => ?_
  cases wrt
  · obtain ⟨rfl, rfl⟩ | ⟨s, d, d', rfl, rfl⟩ | ⟨vs, ws, rfl, rfl, hl⟩ := SameVal.cases hu
    · exact pbind (jmjTpInput_same id _ _ _ _ h 0 (sameVal_tensor rfl)) fun _ _ hr => plift (toOption_same hr)
    · exact pbind (jmjTpInput_same id _ _ _ _ h 0 (sameVal_tensor rfl)) fun _ _ hr => plift (toOption_same hr)
    · exact pbind (jmjTpInput_same id _ _ _ _ h 0 (sameVal_list hl)) fun _ _ hr => plift (toOption_same hr)
  · obtain ⟨rfl, rfl⟩ | ⟨s, d, d', rfl, rfl⟩ | ⟨vs, ws, rfl, rfl, hl⟩ := SameVal.cases hu
    · refine pbind (R := fun a b => (∃ s d d', a.1 = .tensor ⟨s, d⟩ ∧ b.1 = .tensor ⟨s, d'⟩) ∧ a.2 = b.2) (plift (bindE rfl fun _ => pure' ⟨⟨_, _, _, rfl, rfl⟩, rfl⟩))
        fun a b hab => ?_
      obtain ⟨a, p⟩ := a
      obtain ⟨b, p'⟩ := b
      obtain ⟨⟨s, d, d', h1, h2⟩, h3⟩ := hab
      cases h1
      cases h2
      cases h3
      refine pbind (plift (splitBlocks_same _ h 0)) fun a b hab => ?_
      obtain ⟨a, p⟩ := a
      obtain ⟨b, p'⟩ := b
      obtain ⟨h1, h2⟩ := hab
      cases h2
      exact pbindE (passert _) fun _ => pbind (ppure h1) fun _ _ hb => jmjTpWeight_same id _ _ _ _ hb h 0 0 (a := none) (a' := none) trivial
    · refine pbind (R := fun a b => (∃ s d d', a.1 = .tensor ⟨s, d⟩ ∧ b.1 = .tensor ⟨s, d'⟩) ∧ a.2 = b.2) (plift (pure' ⟨⟨_, _, _, rfl, rfl⟩, rfl⟩))
        fun a b hab => ?_
      obtain ⟨a, p⟩ := a
      obtain ⟨b, p'⟩ := b
      obtain ⟨⟨s, d, d', h1, h2⟩, h3⟩ := hab
      cases h1
      cases h2
      cases h3
      refine pbind (plift (splitBlocks_same _ h 0)) fun a b hab => ?_
      obtain ⟨a, p⟩ := a
      obtain ⟨b, p'⟩ := b
      obtain ⟨h1, h2⟩ := hab
      cases h2
      exact pbindE (passert _) fun _ => pbind (ppure h1) fun _ _ hb => jmjTpWeight_same id _ _ _ _ hb h 0 0 (a := none) (a' := none) trivial
    · refine pbind (R := fun a b => (∃ s d, a.1 = .list s ∧ b.1 = .list d ∧ SameVals s d) ∧ a.2 = b.2) (plift (pure' ⟨⟨_, _, rfl, rfl, hl⟩, rfl⟩))
        fun a b hab => ?_
      obtain ⟨a, p⟩ := a
      obtain ⟨b, p'⟩ := b
      obtain ⟨⟨s, d, h1, h2, hl⟩, h3⟩ := hab
      cases h1
      cases h2
      cases h3
      exact pbind (ppure hl) fun _ _ hb => jmjTpWeight_same id _ _ _ _ hb h 0 0 (a := none) (a' := none) trivial
  · exact ppure trivial

theorem jTmjpInput_same (id n : Nat) (fd td db : Bool) (h : SameMods ms ms') : ∀ (k : Nat) {u u'}, SameOpt u u' →
    SameProg SameOpt (Sequential.jTmjpInput id n ms fd td db k u) (Sequential.jTmjpInput id n ms' fd td db k u')
  | 0, _, _, hu => ppure hu
  | k + 1, _, _, hu => pbind (child_same h k) fun _ _ hm => pbindT (fmap_same _ _) fun _ _ _ => pbindT (fmap_same _ _) fun _ _ _ =>
      pbind (hm.jTmjp _ _ _ _ rfl rfl hu) fun _ _ hr => pbindO (plift (toOption_same hr)) fun _ _ hr => jTmjpInput_same id n fd td db h k hr

theorem consVal_same {v : PyVal α} {w : PyVal β} (h : SameVal v w) {vs ws} (hs : SameVals vs ws) : SameVals (Sequential.consVal v vs) (Sequential.consVal w ws) := by
  obtain ⟨rfl, rfl⟩ | ⟨s, d, d', rfl, rfl⟩ | ⟨_, _, rfl, rfl, hl⟩ := SameVal.cases h
  · exact hs
  · exact sameVals_cons (sameVal_tensor rfl) hs
  · exact sameVals_cons (sameVal_list hl) hs

theorem jTmjpWeight_same (id n : Nat) (fd td db : Bool) (h : SameMods ms ms') : ∀ (k : Nat) {u u' vs ws}, SameOpt u u' → SameVals vs ws →
    SameProg SameVals (Sequential.jTmjpWeight id n ms fd td db k u vs) (Sequential.jTmjpWeight id n ms' fd td db k u' ws)
  | 0, _, _, _, _, _, hs => ppure hs
  | k + 1, _, _, _, _, hu, hs => pbind (child_same h k) fun _ _ hm => pbindT (fmap_same _ _) fun _ _ _ => pbindT (fmap_same _ _) fun _ _ _ =>
      pbind (hm.jTmjp _ _ _ _ rfl rfl hu) fun _ _ hr => by
        dsimp only
        split
        · exact ppure (consVal_same hr hs)
        · exact pbind (hm.jTmjp _ _ _ _ rfl rfl hu) fun _ _ hi => pbindO (plift (toOption_same hi)) fun _ _ hi =>
            jTmjpWeight_same id n fd td db h k hi (consVal_same hr hs)

theorem sameVals_length : ∀ {vs : List (PyVal α)} {ws : List (PyVal β)}, SameVals vs ws → vs.length = ws.length
  | [], ws, h => by
    obtain ⟨_, rfl⟩ | ⟨_, _, _, _, h1, _⟩ := SameVals.cases h
    · rfl
    · simp at h1
  | v :: vs, ws, h => by
    obtain ⟨h1, _⟩ | ⟨_, _, _, _, h1, rfl, h2, h3⟩ := SameVals.cases h
    · simp at h1
    · cases h1
      simp only [List.length_cons, sameVals_length h3]

theorem seq_jTmjp [Zero α] [One α] [Zero β] [One β] (id : Nat) (b : Bool) (h : SameMods ms ms') {s : List Nat} {d : Nat → α} {e : Nat → β}
    {v v' u u'} (wrt) (fd td db : Bool) (hv : SameOpt v v') (hu : SameOpt u u') :
    SameProg SameVal (Sequential.jTmjp id b ms ⟨s, d⟩ v u wrt fd td db) (Sequential.jTmjp id b ms' ⟨s, e⟩ v' u' wrt fd td db) := by
  unfold Sequential.jTmjp
  rw [List.Forall₂.length_eq h]
  refine pbindE (passert _) fun _ => pbindT (seq_getVal id b h hv) fun s1 d1 d1' => ?_
  refine pbind (R := fun a b => SameShape a.1 b.1 ∧ a.2 = b.2) (plift ?_) fun a b hab => ?_
  · sopt hu
    · dsimp only
      split
      · exact err _
      · exact ok ⟨rfl, rfl⟩
    · exact ok ⟨rfl, rfl⟩
  obtain ⟨a, p⟩ := a
  obtain ⟨b, p'⟩ := b
  obtain ⟨h1, h2⟩ := hab
  cases h2
  dsimp only
  cases wrt
  · exact pbindO (jTmjpInput_same id _ _ _ _ h _ h1) fun _ _ hr => ppure (sameVal_ofOption hr)
  · refine pbind (jTmjpWeight_same id _ _ _ _ h _ (show SameOpt (some a) (some b) from h1) sameVals_nil) fun as bs hl => ?_
    rw [sameVals_length hl]
    split
    · exact ppure sameVal_none
    · split
      · exact pbind (plift (mapM_toTensor hl)) fun _ _ ht => pbindT (plift (cat 1 ht)) fun _ _ _ => ppure (sameVal_tensor rfl)
      · exact ppure (sameVal_list hl)
  · exact pbindO (jTmjpInput_same id _ _ _ _ h _ h1) fun _ _ hr => ppure sameVal_none

theorem seq_same [Zero α] [One α] [Add α] [Zero β] [One β] [Add β] (id : Nat) (b : Bool) (h : SameMods ms ms') :
    SameMod (Sequential.mod id b ms) (Sequential.mod id b ms') where
  id := rfl
  nParams := nParams_same h
  params := params_same h
  forward hx := by
    obtain ⟨s, d, d', rfl, rfl⟩ := SameShape.cases hx
    exact seq_forward id b h
  jacobian wrt hx hv := by
    obtain ⟨s, d, d', rfl, rfl⟩ := SameShape.cases hx
    exact seq_mjp id b h wrt hv trivial
  jvp wrt hx hv hu := by
    obtain ⟨s, d, d', rfl, rfl⟩ := SameShape.cases hx
    obtain ⟨r, c, c', rfl, rfl⟩ := SameShape.cases hu
    exact seq_jvp (v := none) (v' := none) h wrt
  jmp wrt hx hv hu := by
    obtain ⟨s, d, d', rfl, rfl⟩ := SameShape.cases hx
    exact seq_jmp id b h wrt hv hu
  jmjTp wrt fd td db hx hv hu := by
    obtain ⟨s, d, d', rfl, rfl⟩ := SameShape.cases hx
    exact seq_jmjTp id b h wrt fd td db hv hu
  vjp wrt hx hv hu := by
    obtain ⟨s, d, d', rfl, rfl⟩ := SameShape.cases hx
    obtain ⟨r, c, c', rfl, rfl⟩ := SameShape.cases hu
    exact seq_vjp id b h wrt hv
  mjp wrt hx hv hu := by
    obtain ⟨s, d, d', rfl, rfl⟩ := SameShape.cases hx
    exact seq_mjp id b h wrt hv hu
  jTmjp wrt fd td db hx hv hu := by
    obtain ⟨s, d, d', rfl, rfl⟩ := SameShape.cases hx
    exact seq_jTmjp id b h wrt fd td db hv hu

end mods
end Shp
end NNJ
