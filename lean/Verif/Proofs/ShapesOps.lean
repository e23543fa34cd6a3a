import Verif.Spec.Shapes
import Mathlib.Data.List.Forall2

/-!
# Helper lemmas: the shapes and exceptions of the tensor operations do not depend on the entries
-/

namespace NNJ
namespace Shp
open Tensor

variable {α β : Type}

theorem SameShape.cases {t : Tensor α} {u : Tensor β} (h : SameShape t u) : ∃ s d d', t = ⟨s, d⟩ ∧ u = ⟨s, d'⟩ := by
  obtain ⟨s, d⟩ := t
  obtain ⟨s', d'⟩ := u
  have : s = s' := h
  subst this
  exact ⟨s, d, d', rfl, rfl⟩

theorem SameOpt.cases {t : Option (Tensor α)} {u : Option (Tensor β)} (h : SameOpt t u) :
    (t = none ∧ u = none) ∨ ∃ s d d', t = some ⟨s, d⟩ ∧ u = some ⟨s, d'⟩ := by
  cases t <;> cases u
  · exact .inl ⟨rfl, rfl⟩
  · exact h.elim
  · exact h.elim
  · obtain ⟨s, d, d', rfl, rfl⟩ := SameShape.cases h
    exact .inr ⟨s, d, d', rfl, rfl⟩

section res
variable {A B C D : Type} {R : A → B → Prop} {S : C → D → Prop}

theorem ok {a : A} {b : B} (h : R a b) : SameRes R (.ok a) (.ok b) := h

theorem pure' {a : A} {b : B} (h : R a b) : SameRes R (pure a : Res A) (pure b : Res B) := h

theorem err (e : Err) : SameRes R (.error e) (.error e) := rfl

theorem bind {p : Res A} {q : Res B} {f : A → Res C} {g : B → Res D} (h : SameRes R p q) (hf : ∀ a b, R a b → SameRes S (f a) (g b)) :
    SameRes S (p >>= f) (q >>= g) := by
  cases p <;> cases q
  · exact h
  · exact h.elim
  · exact h.elim
  · exact hf _ _ h

theorem map {p : Res A} {q : Res B} {f : A → C} {g : B → D} (h : SameRes R p q) (hf : ∀ a b, R a b → S (f a) (g b)) :
    SameRes S (f <$> p) (g <$> q) := by
  cases p <;> cases q
  · exact h
  · exact h.elim
  · exact h.elim
  · exact hf _ _ h

/-- the results are tensors -/
theorem bindT {p : Res (Tensor α)} {q : Res (Tensor β)} {f : Tensor α → Res C} {g : Tensor β → Res D} (h : SameRes SameShape p q)
    (hf : ∀ s d d', SameRes S (f ⟨s, d⟩) (g ⟨s, d'⟩)) : SameRes S (p >>= f) (q >>= g) :=
  bind h fun a b hab => by
    obtain ⟨s, d, d', rfl, rfl⟩ := SameShape.cases hab
    exact hf s d d'

/-- the results are tensors or `None` -/
theorem bindO {p : Res (Option (Tensor α))} {q : Res (Option (Tensor β))} {f : Option (Tensor α) → Res C} {g : Option (Tensor β) → Res D}
    (h : SameRes SameOpt p q) (h0 : SameRes S (f none) (g none)) (hf : ∀ s d d', SameRes S (f (some ⟨s, d⟩)) (g (some ⟨s, d'⟩))) :
    SameRes S (p >>= f) (q >>= g) :=
  bind h fun a b hab => by
    obtain ⟨rfl, rfl⟩ | ⟨s, d, d', rfl, rfl⟩ := SameOpt.cases hab
    · exact h0
    · exact hf s d d'

theorem mapT {p : Res (Tensor α)} {q : Res (Tensor β)} (h : SameRes SameShape p q) : SameRes SameOpt (some <$> p) (some <$> q) :=
  map h fun _ _ h => h

/-- the result is the same -/
theorem bindE {p q : Res A} {f : A → Res C} {g : A → Res D} (h : p = q) (hf : ∀ a, SameRes S (f a) (g a)) :
    SameRes S (p >>= f) (q >>= g) := by
  subst h
  cases p
  · exact err _
  · exact hf _

theorem bindE2 {A' : Type} {p q : Res (A × A')} {f : A × A' → Res C} {g : A × A' → Res D} (h : p = q)
    (hf : ∀ a b, SameRes S (f (a, b)) (g (a, b))) : SameRes S (p >>= f) (q >>= g) :=
  bindE h fun _ => hf _ _

theorem bindE4 {p q : Res (Nat × Nat × Nat × Nat)} {f : Nat × Nat × Nat × Nat → Res C} {g : Nat × Nat × Nat × Nat → Res D} (h : p = q)
    (hf : ∀ a b c d, SameRes S (f (a, b, c, d)) (g (a, b, c, d))) : SameRes S (p >>= f) (q >>= g) :=
  bindE h fun _ => hf _ _ _ _

theorem bindB {p : Res (Tensor α × Bool)} {q : Res (Tensor β × Bool)} {f : Tensor α × Bool → Res C} {g : Tensor β × Bool → Res D}
    (h : SameRes (fun a b => SameShape a.1 b.1 ∧ a.2 = b.2) p q) (hf : ∀ s d d' b, SameRes S (f (⟨s, d⟩, b)) (g (⟨s, d'⟩, b))) :
    SameRes S (p >>= f) (q >>= g) :=
  bind h fun a b hab => by
    obtain ⟨a, x⟩ := a
    obtain ⟨b, y⟩ := b
    obtain ⟨h1, h2⟩ := hab
    obtain ⟨s, d, d', rfl, rfl⟩ := SameShape.cases h1
    cases h2
    exact hf s d d' _

end res

section ops
variable {s s' s'' : List Nat} {d d1 d2 : Nat → α} {e e1 e2 : Nat → β}

theorem reshape (r : List Nat) : SameRes SameShape ((⟨s, d⟩ : Tensor α).reshape r) ((⟨s, e⟩ : Tensor β).reshape r) := by
  unfold Tensor.reshape numel
  dsimp only
  split <;> rfl

theorem reshapeInfer (r r' : List Nat) : SameRes SameShape ((⟨s, d⟩ : Tensor α).reshapeInfer r r') ((⟨s, e⟩ : Tensor β).reshapeInfer r r') := by
  unfold Tensor.reshapeInfer numel
  dsimp only
  split
  · rfl
  · split <;> rfl

theorem reshapeOpen (r : List Int) : SameRes SameShape ((⟨s, d⟩ : Tensor α).reshapeOpen r) ((⟨s, e⟩ : Tensor β).reshapeOpen r) := by
  unfold Tensor.reshapeOpen
  dsimp only
  split
  · exact reshape _
  · split
    · exact reshapeInfer _ _
    · rfl

theorem unsqueeze (i : Nat) : SameRes SameShape ((⟨s, d⟩ : Tensor α).unsqueeze i) ((⟨s, e⟩ : Tensor β).unsqueeze i) := by
  unfold Tensor.unsqueeze
  dsimp only
  split <;> rfl

theorem select0 (i : Nat) : SameRes SameShape ((⟨s, d⟩ : Tensor α).select0 i) ((⟨s, e⟩ : Tensor β).select0 i) := by
  unfold Tensor.select0
  dsimp only
  split
  · rfl
  · split <;> rfl

theorem slice (i a b : Nat) : SameRes SameShape ((⟨s, d⟩ : Tensor α).slice i a b) ((⟨s, e⟩ : Tensor β).slice i a b) := by
  unfold Tensor.slice
  dsimp only
  split <;> rfl

theorem expandAt (i n : Nat) : SameRes SameShape ((⟨s, d⟩ : Tensor α).expandAt i n) ((⟨s, e⟩ : Tensor β).expandAt i n) := by
  unfold Tensor.expandAt
  dsimp only
  split
  · rfl
  · split <;> rfl
  · rfl

theorem movedim (a b : List Int) : SameRes SameShape ((⟨s, d⟩ : Tensor α).movedim a b) ((⟨s, e⟩ : Tensor β).movedim a b) := by
  unfold Tensor.movedim
  dsimp only
  split <;> rfl

theorem transpose12 : SameRes SameShape ((⟨s, d⟩ : Tensor α).transpose12) ((⟨s, e⟩ : Tensor β).transpose12) := movedim _ _

theorem flip (a : List Int) : SameRes SameShape ((⟨s, d⟩ : Tensor α).flip a) ((⟨s, e⟩ : Tensor β).flip a) := by
  unfold Tensor.flip
  dsimp only
  split <;> rfl

theorem diagEmbed [Zero α] [Zero β] : SameRes SameShape ((⟨s, d⟩ : Tensor α).diagEmbed) ((⟨s, e⟩ : Tensor β).diagEmbed) := by
  unfold Tensor.diagEmbed
  dsimp only
  split <;> rfl

theorem diagonal12 : SameRes SameShape ((⟨s, d⟩ : Tensor α).diagonal12) ((⟨s, e⟩ : Tensor β).diagonal12) := by
  unfold Tensor.diagonal12
  dsimp only
  split <;> rfl

theorem cat2 (i : Nat) : SameRes SameShape (Tensor.cat2 (⟨s, d1⟩ : Tensor α) ⟨s', d2⟩ i) (Tensor.cat2 (⟨s, e1⟩ : Tensor β) ⟨s', e2⟩ i) := by
  unfold Tensor.cat2
  dsimp only
  split
  · split <;> rfl
  · rfl

theorem zipWithB (f : α → α → α) (g : β → β → β) :
    SameRes SameShape (Tensor.zipWithB f (⟨s, d1⟩ : Tensor α) ⟨s', d2⟩) (Tensor.zipWithB g (⟨s, e1⟩ : Tensor β) ⟨s', e2⟩) := by
  unfold Tensor.zipWithB
  dsimp only
  split
  · rfl
  · split <;> rfl

theorem add [Add α] [Add β] : SameRes SameShape (Tensor.add (⟨s, d1⟩ : Tensor α) ⟨s', d2⟩) (Tensor.add (⟨s, e1⟩ : Tensor β) ⟨s', e2⟩) :=
  zipWithB _ _

theorem sub [Sub α] [Sub β] : SameRes SameShape (Tensor.sub (⟨s, d1⟩ : Tensor α) ⟨s', d2⟩) (Tensor.sub (⟨s, e1⟩ : Tensor β) ⟨s', e2⟩) :=
  zipWithB _ _

theorem mul [Mul α] [Mul β] : SameRes SameShape (Tensor.mul (⟨s, d1⟩ : Tensor α) ⟨s', d2⟩) (Tensor.mul (⟨s, e1⟩ : Tensor β) ⟨s', e2⟩) :=
  zipWithB _ _

theorem addInPlace [Add α] [Add β] :
    SameRes SameShape (Tensor.addInPlace (⟨s, d1⟩ : Tensor α) ⟨s', d2⟩) (Tensor.addInPlace (⟨s, e1⟩ : Tensor β) ⟨s', e2⟩) := by
  unfold Tensor.addInPlace
  refine bindT add fun r d d' => ?_
  dsimp only
  split <;> rfl

theorem setRow (i : Nat) : SameRes SameShape (Tensor.setRow (⟨s, d1⟩ : Tensor α) i ⟨s', d2⟩) (Tensor.setRow (⟨s, e1⟩ : Tensor β) i ⟨s', e2⟩) := by
  unfold Tensor.setRow
  dsimp only
  split
  · rfl
  · split
    · split <;> rfl
    · rfl

theorem sum0 [Zero α] [Add α] [Zero β] [Add β] : SameRes SameShape ((⟨s, d⟩ : Tensor α).sum0) ((⟨s, e⟩ : Tensor β).sum0) := by
  unfold Tensor.sum0
  dsimp only
  split <;> rfl

theorem sum1 [Zero α] [Add α] [Zero β] [Add β] : SameRes SameShape ((⟨s, d⟩ : Tensor α).sum1) ((⟨s, e⟩ : Tensor β).sum1) := by
  unfold Tensor.sum1
  dsimp only
  split <;> rfl

theorem labelPairs_eq : ∀ {ins : List (List Char)} {ops : List (Tensor α)} {ops' : List (Tensor β)}, ops.map Tensor.shape = ops'.map Tensor.shape →
    labelPairs ins ops = labelPairs ins ops'
  | [], _, _, _ => by simp [labelPairs]
  | l :: ls, [], [], _ => rfl
  | l :: ls, [], _ :: _, h => by simp at h
  | l :: ls, _ :: _, [], h => by simp at h
  | l :: ls, t :: ts, u :: us, h => by
    simp only [List.map_cons, List.cons.injEq] at h
    simp only [labelPairs, h.1, labelPairs_eq h.2]

theorem ranksOk_eq : ∀ {ins : List (List Char)} {ops : List (Tensor α)} {ops' : List (Tensor β)}, ops.map Tensor.shape = ops'.map Tensor.shape →
    ranksOk ins ops = ranksOk ins ops'
  | [], [], [], _ => rfl
  | [], t :: ts, u :: us, _ => rfl
  | [], [], _ :: _, h => by simp at h
  | [], _ :: _, [], h => by simp at h
  | l :: ls, [], [], _ => rfl
  | l :: ls, [], _ :: _, h => by simp at h
  | l :: ls, _ :: _, [], h => by simp at h
  | l :: ls, t :: ts, u :: us, h => by
    simp only [List.map_cons, List.cons.injEq] at h
    simp only [ranksOk, h.1, ranksOk_eq h.2]

theorem operandsDiagOk_eq : ∀ {ins : List (List Char)} {ops : List (Tensor α)} {ops' : List (Tensor β)},
    ops.map Tensor.shape = ops'.map Tensor.shape → operandsDiagOk ins ops = operandsDiagOk ins ops'
  | [], _, _, _ => by simp [operandsDiagOk]
  | l :: ls, [], [], _ => rfl
  | l :: ls, [], _ :: _, h => by simp at h
  | l :: ls, _ :: _, [], h => by simp at h
  | l :: ls, t :: ts, u :: us, h => by
    simp only [List.map_cons, List.cons.injEq] at h
    simp only [operandsDiagOk, h.1, operandsDiagOk_eq h.2]

section
variable [Zero α] [One α] [Add α] [Mul α] [Zero β] [One β] [Add β] [Mul β]

theorem einsum (ins : List (List Char)) (out : List Char) {ops : List (Tensor α)} {ops' : List (Tensor β)}
    (h : ops.map Tensor.shape = ops'.map Tensor.shape) : SameRes SameShape (NNJ.einsum ins out ops) (NNJ.einsum ins out ops') := by
  unfold NNJ.einsum
  dsimp only
  rw [labelPairs_eq h, ranksOk_eq h, operandsDiagOk_eq h]
  split
  · split <;> rfl
  · rfl

theorem linear0 : SameRes SameShape (Torch.linear (⟨s, d1⟩ : Tensor α) ⟨s', d2⟩ none) (Torch.linear (⟨s, e1⟩ : Tensor β) ⟨s', e2⟩ none) := by
  unfold Torch.linear
  dsimp only
  split
  · split <;> rfl
  · rfl

theorem linear1 : SameRes SameShape (Torch.linear (⟨s, d1⟩ : Tensor α) ⟨s', d2⟩ (some ⟨s'', d⟩))
    (Torch.linear (⟨s, e1⟩ : Tensor β) ⟨s', e2⟩ (some ⟨s'', e⟩)) := by
  unfold Torch.linear
  dsimp only
  split
  · split
    · split <;> rfl
    · rfl
  · rfl

theorem conv2d0 (a : Torch.ConvArgs) :
    SameRes SameShape (Torch.conv2d (⟨s, d1⟩ : Tensor α) ⟨s', d2⟩ none a) (Torch.conv2d (⟨s, e1⟩ : Tensor β) ⟨s', e2⟩ none a) := by
  unfold Torch.conv2d
  dsimp only
  split
  · split
    · rfl
    · split
      · rfl
      · split
        · rfl
        · split
          · rfl
          · split <;> rfl
  · rfl

theorem conv2d1 (a : Torch.ConvArgs) : SameRes SameShape (Torch.conv2d (⟨s, d1⟩ : Tensor α) ⟨s', d2⟩ (some ⟨s'', d⟩) a)
    (Torch.conv2d (⟨s, e1⟩ : Tensor β) ⟨s', e2⟩ (some ⟨s'', e⟩) a) := by
  unfold Torch.conv2d
  dsimp only
  split
  · split
    · rfl
    · split
      · rfl
      · split
        · rfl
        · split
          · rfl
          · split <;> rfl
  · rfl

theorem convTranspose2d (a : Torch.ConvArgs) :
    SameRes SameShape (Torch.convTranspose2d (⟨s, d1⟩ : Tensor α) ⟨s', d2⟩ a) (Torch.convTranspose2d (⟨s, e1⟩ : Tensor β) ⟨s', e2⟩ a) := by
  unfold Torch.convTranspose2d
  dsimp only
  split
  · split
    · rfl
    · split
      · rfl
      · split
        · rfl
        · split <;> rfl
  · rfl

end

theorem upsampleNearest (a b : Nat) :
    SameRes SameShape (Torch.upsampleNearest (⟨s, d⟩ : Tensor α) a b) (Torch.upsampleNearest (⟨s, e⟩ : Tensor β) a b) := by
  unfold Torch.upsampleNearest
  dsimp only
  split
  · split
    · rfl
    · split <;> rfl
  · rfl

theorem needR' {v : Option (Tensor α)} {w : Option (Tensor β)} (h : SameOpt v w) : SameRes SameShape (needR v) (needR w) := by
  obtain ⟨rfl, rfl⟩ | ⟨s, d, d', rfl, rfl⟩ := SameOpt.cases h
  · exact err _
  · exact ok rfl

/-- lists of tensors of the same shapes -/
def SameList : List (Tensor α) → List (Tensor β) → Prop := List.Forall₂ SameShape

theorem SameList.shapes {ts : List (Tensor α)} {us : List (Tensor β)} (h : SameList ts us) : ts.map Tensor.shape = us.map Tensor.shape := by
  induction h with
  | nil => rfl
  | cons h _ ih => simp only [List.map_cons, ih, show _ = _ from h]

theorem SameList.of_shapes : ∀ {ts : List (Tensor α)} {us : List (Tensor β)}, ts.map Tensor.shape = us.map Tensor.shape → SameList ts us
  | [], [], _ => .nil
  | [], _ :: _, h => by simp at h
  | _ :: _, [], h => by simp at h
  | t :: ts, u :: us, h => by
    simp only [List.map_cons, List.cons.injEq] at h
    exact .cons h.1 (SameList.of_shapes h.2)

theorem catLoop (i : Nat) {ts : List (Tensor α)} {us : List (Tensor β)} (h : SameList ts us) : ∀ {s : List Nat} {d : Nat → α} {e : Nat → β},
    SameRes SameShape (ts.foldlM (fun r u => Tensor.cat2 r u i) (⟨s, d⟩ : Tensor α)) (us.foldlM (fun r u => Tensor.cat2 r u i) (⟨s, e⟩ : Tensor β)) := by
  induction h with
  | nil => exact ok rfl
  | cons h _ ih =>
    intro s d e
    obtain ⟨s', d1, d1', rfl, rfl⟩ := SameShape.cases h
    simp only [List.foldlM_cons]
    exact bindT (cat2 i) fun s d d' => ih

theorem cat (i : Nat) {ts : List (Tensor α)} {us : List (Tensor β)} (h : SameList ts us) : SameRes SameShape (Tensor.cat i ts) (Tensor.cat i us) := by
  cases h with
  | nil => exact err _
  | @cons t u ts us h hs =>
    unfold Tensor.cat
    obtain ⟨s, d, d', rfl, rfl⟩ := SameShape.cases h
    dsimp only
    split
    · exact catLoop i hs
    · exact err _

theorem stack0 {ts : List (Tensor α)} {us : List (Tensor β)} (h : SameList ts us) : SameRes SameShape (Tensor.stack0 ts) (Tensor.stack0 us) := by
  cases h with
  | nil => exact err _
  | @cons t u ts us h hs =>
    have hs' := SameList.shapes hs
    have hl : ts.length = us.length := by simpa using congrArg List.length hs'
    have ha : ∀ (l : List Nat), (ts.all fun v => decide (v.shape = l)) = us.all fun v => decide (v.shape = l) := fun l => by
      have := congrArg (fun z : List (List Nat) => z.all fun v => decide (v = l)) hs'
      simpa [List.all_map, Function.comp_def] using this
    unfold Tensor.stack0
    obtain ⟨s, d, d', rfl, rfl⟩ := SameShape.cases h
    dsimp only
    rw [ha]
    split
    · exact ok (by simp [SameShape, hl])
    · exact err _

theorem mapM {ι : Type} {f : ι → Res (Tensor α)} {g : ι → Res (Tensor β)} (h : ∀ i, SameRes SameShape (f i) (g i)) :
    ∀ l : List ι, SameRes SameList (l.mapM f) (l.mapM g)
  | [] => by
    simp only [List.mapM_nil]
    exact pure' .nil
  | i :: l => by
    simp only [List.mapM_cons]
    exact bind (h i) fun a b hab => bind (mapM h l) fun as bs habs => pure' (.cons hab habs)

theorem vmap2 {f : Tensor α → Tensor α → Res (Tensor α)} {g : Tensor β → Tensor β → Res (Tensor β)}
    (h : ∀ s1 d1 e1 s2 d2 e2, SameRes SameShape (f ⟨s1, d1⟩ ⟨s2, d2⟩) (g ⟨s1, e1⟩ ⟨s2, e2⟩)) :
    SameRes SameShape (Tensor.vmap2 f ⟨s, d1⟩ ⟨s', d2⟩) (Tensor.vmap2 g ⟨s, e1⟩ ⟨s', e2⟩) := by
  unfold Tensor.vmap2
  refine bindE rfl fun n => bindE rfl fun m => ?_
  split
  · exact bind (mapM (fun i => bindT (select0 i) fun _ _ _ => bindT (select0 i) fun _ _ _ => h _ _ _ _ _ _) _) fun a b hab => stack0 hab
  · exact err _

theorem fillRows [Zero α] [One α] [Add α] [Mul α] [Zero β] [One β] [Add β] [Mul β] {f : Nat → Res (Tensor α)} {g : Nat → Res (Tensor β)}
    (h : ∀ i, SameRes SameShape (f i) (g i)) (n : Nat) :
    SameRes SameShape (Conv2d.fillRows f n ⟨s, d⟩) (Conv2d.fillRows g n ⟨s, e⟩) := by
  unfold Conv2d.fillRows
  generalize List.range n = l
  induction l generalizing s d e with
  | nil => exact ok rfl
  | cons i l ih =>
    simp only [List.foldlM_cons]
    exact bindT (bindT (h i) fun _ _ _ => setRow i) fun _ _ _ => ih

end ops
end Shp
end NNJ
