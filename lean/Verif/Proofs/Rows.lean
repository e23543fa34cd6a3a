import Verif.Proofs.NoneNet

/-!
`mjp` never changes the number of rows of its matrix, whatever state, input and `val` it is given.
-/

namespace NNJ
open Tensor

/-- a batch of matrices with `r` rows -/
def HasRows {α : Type} (r : Nat) (t : Tensor α) : Prop := ∃ b c, t.shape = [b, r, c]

/-- `mjp` preserves the number of rows -/
def Rows {α : Type} (m : Mod α) (wrt : Wrt) : Prop :=
  ∀ x val A r, HasRows r A → Post (m.mjp x val (some A) wrt) fun o => ∀ t, o = some t → HasRows r t

def RowsR {α : Type} (L : PureLayer α) (wrt : Wrt) : Prop :=
  ∀ x val A r, HasRows r A → RPost (L.mjp x val (some A) wrt) fun o => ∀ t, o = some t → HasRows r t

theorem RowsR.toMod {α : Type} {wrt : Wrt} {L : Store α → PureLayer α} {id nParams : Nat} {params : List Nat} (h : ∀ s, RowsR (L s) wrt) :
    Rows (PureLayer.toMod L id nParams params) wrt := fun x val A r hA => Post.of_res fun s => h s x val A r hA

theorem RPost.mapSome {β : Type} {p : Res β} {Q : β → Prop} (h : RPost p Q) : RPost (some <$> p) fun o => ∀ t, o = some t → Q t :=
  RPost.map h fun c hc t ht => by cases ht; exact hc

section
variable {α : Type} [Zero α] [One α] [Add α] [Mul α]

theorem einsum_shape (ins : List (List Char)) (out : List Char) (ops : List (Tensor α)) :
    RPost (einsum ins out ops) fun t => t.shape = out.map (labelDim (labelPairs ins ops)) := by
  simp only [einsum]; rpost; rfl

theorem ite_one (r : Nat) : (if r = 1 then 1 else r) = r := by split <;> simp_all

theorem rows_ein1 {A W : Tensor α} {r : Nat} (hA : HasRows r A) : RPost (einsum% "bij,jk->bik" [A, W]) (HasRows r) := by
  obtain ⟨b, c, hA⟩ := hA
  refine (einsum_shape _ _ _).mono fun t ht => ?_
  rcases hW : W.shape with _ | ⟨w0, _ | ⟨w1, ws⟩⟩ <;> simp [labelPairs, hA, hW, labelDim, ite_one] at ht <;> exact ⟨_, _, ht⟩

theorem rows_ein2 {A W : Tensor α} {r : Nat} (hA : HasRows r A) : RPost (einsum% "bij,bj->bij" [A, W]) (HasRows r) := by
  obtain ⟨b, c, hA⟩ := hA
  refine (einsum_shape _ _ _).mono fun t ht => ?_
  rcases hW : W.shape with _ | ⟨w0, _ | ⟨w1, ws⟩⟩ <;> simp [labelPairs, hA, hW, labelDim, ite_one] at ht <;> exact ⟨_, _, ht⟩

theorem rows_ein3 {A W : Tensor α} {r : Nat} (hA : HasRows r A) : RPost (einsum% "bij,bjk->bik" [A, W]) (HasRows r) := by
  obtain ⟨b, c, hA⟩ := hA
  refine (einsum_shape _ _ _).mono fun t ht => ?_
  rcases hW : W.shape with _ | ⟨w0, _ | ⟨w1, _ | ⟨w2, ws⟩⟩⟩ <;> simp [labelPairs, hA, hW, labelDim, ite_one] at ht <;> exact ⟨_, _, ht⟩

theorem rows_cat2 {A W : Tensor α} {r : Nat} (hA : HasRows r A) : RPost (cat2 A W 2) (HasRows r) := by
  obtain ⟨b, c, hA⟩ := hA
  simp only [cat2]; rpost
  rename_i m n _ _ _
  exact ⟨b, m + n, by simp [ofFn, hA]⟩

theorem rows_slice {A : Tensor α} {r i j : Nat} (hA : HasRows r A) : RPost (A.slice 2 i j) (HasRows r) := by
  obtain ⟨b, c, hA⟩ := hA
  simp only [Tensor.slice]; rpost
  rename_i n _
  exact ⟨b, min j n - min i n, by simp [ofFn, hA]⟩

theorem rows_add {A W : Tensor α} {r : Nat} (hA : HasRows r A) (hW : HasRows r W) : RPost (A.add W) (HasRows r) := by
  obtain ⟨b, c, hA⟩ := hA
  obtain ⟨b', c', hW⟩ := hW
  simp only [Tensor.add, zipWithB, hA, hW]
  rpost
  · exact ⟨_, _, rfl⟩
  · rename_i rs h
    simp only [List.reverse_cons, List.reverse_nil, List.nil_append, List.cons_append, broadcastRev] at h
    split_ifs at h <;> simp at h <;> rw [← h] <;> exact ⟨_, _, rfl⟩

theorem rows_reshape {A : Tensor α} {b r c : Nat} : RPost (A.reshape [b, r, c]) (HasRows r) := by
  simp only [Tensor.reshape]; rpost; exact ⟨_, _, rfl⟩

theorem rows_reshapeInfer {A : Tensor α} {b r : Nat} : RPost (A.reshapeInfer [b, r] []) (HasRows r) := by
  simp only [Tensor.reshapeInfer]; rpost; exact ⟨_, _, rfl⟩

theorem rows_movedim {A : Tensor α} {b r c : Nat} (hA : A.shape = [b, c, r]) : RPost (A.movedim [1] [2]) (HasRows r) := by
  simp only [Tensor.movedim, hA]; rpost
  refine ⟨b, c, ?_⟩
  have : movedimPerm 3 [1] [2] = [0, 2, 1] := by decide
  simp [permute, ofFn, hA, this]

theorem numel0_eq (t : Tensor α) : RPost t.numel0 fun l => ∃ b s, t.shape = b :: s ∧ l = size s := by
  simp only [Tensor.numel0]; rpost
  rename_i b s _ h
  exact ⟨_, _, h, rfl⟩

theorem linear_rows (W : Tensor α) (b : Option (Tensor α)) (n : Nat) (wrt : Wrt) : RowsR (Linear.layer W b n) wrt := by
  intro x val A r hA
  cases wrt with
  | input => exact (rows_ein1 hA).mapSome
  | weight =>
    obtain ⟨b0, c0, hA'⟩ := id hA
    refine RPost.any fun ⟨_, _⟩ => RPost.bind (P := fun q => q = r) (by simp [Tensor.dim, hA']; exact RPost.ok rfl) ?_
    rintro _ rfl
    refine RPost.any fun _ => RPost.any fun _ => RPost.any fun _ => rows_reshapeInfer.bind fun o ho => ?_
    cases b with
    | none => exact RPost.ok fun t ht => by cases ht; exact ho
    | some b => exact (rows_cat2 ho).mapSome
  | other => exact RPost.ok (by simp)

theorem diag_rows {fwd : Tensor α → Res (Tensor α)} {jac : AbstractDiagonal.Jac α} (wrt : Wrt) :
    RowsR (AbstractDiagonal.defaults fwd jac) wrt := by
  intro x val A r hA
  refine RPost.any fun j => ?_
  cases j with
  | none => exact RPost.ok (by simp)
  | some j => exact (rows_ein2 hA).mapSome

theorem jac_rows {fwd : Tensor α → Res (Tensor α)} {jac : AbstractJacobian.Jac α} (wrt : Wrt) :
    RowsR (AbstractJacobian.defaults fwd jac) wrt := by
  intro x val A r hA
  refine RPost.any fun j => ?_
  cases j with
  | none => exact RPost.ok (by simp)
  | some j => exact (rows_ein3 hA).mapSome

theorem resh_rows (fwd : Tensor α → Res (Tensor α)) (wrt : Wrt) : RowsR (Resh.layer fwd) wrt := by
  intro x val A r hA
  cases wrt with
  | input => exact RPost.ok fun t ht => by cases ht; exact hA
  | weight => exact RPost.ok (by simp)
  | other => exact RPost.ok (by simp)

theorem upsample_rows (f : Upsample.Scale) (wrt : Wrt) : RowsR (Upsample.layer (α := α) f) wrt := by
  intro x val A r hA
  cases wrt with
  | input =>
    obtain ⟨b0, c0, hA'⟩ := id hA
    refine RPost.any fun _ => RPost.any fun ⟨_, _, _, _⟩ => RPost.any fun ⟨_, _, _, _⟩ => RPost.any fun _ =>
      RPost.any fun _ => RPost.any fun _ => RPost.any fun _ => RPost.bind (P := fun q => q = r) (by simp [Tensor.dim, hA']; exact RPost.ok rfl) ?_
    rintro _ rfl
    exact RPost.any fun _ => rows_reshape.mapSome
  | weight => exact RPost.ok (by simp)
  | other => exact RPost.ok (by simp)

theorem conv_rows (cfg : Conv2d.Cfg) (W : Tensor α) (b : Option (Tensor α)) : RowsR (Conv2d.layer cfg W b) .input := by
  intro x val A r hA
  obtain ⟨b0, c0, hA'⟩ := id hA
  refine RPost.any fun _ => RPost.any fun ⟨_, _, _, _⟩ => RPost.any fun ⟨_, _, _, _⟩ =>
     RPost.bind (P := fun q => q = r) (by simp [Tensor.dim, hA']; exact RPost.ok rfl) ?_
  intro q hq
  subst hq
  refine RPost.any fun _ => RPost.any fun _ => RPost.any fun _ => RPost.any fun _ => RPost.any fun _ => RPost.any fun _ => RPost.any fun _ =>
    RPost.any fun _ => RPost.bind (P := fun t => ∃ b c, t.shape = [b, c, q]) ?_ ?_
  · simp only [Tensor.reshape]; rpost; exact ⟨_, _, rfl⟩
  · rintro t ⟨b, c, ht⟩
    exact (rows_movedim ht).mapSome

theorem maxpool_rows [LT α] [DecidableLT α] (a : Torch.PoolArgs) (id : Nat) (wrt : Wrt) : Rows (MaxPool2d.mod (α := α) a id) wrt := by
  intro x val A r hA
  cases wrt with
  | input =>
    obtain ⟨b0, c0, hA'⟩ := hA
    refine Post.any fun _ => Post.any fun _ => Post.bind (P := HasRows r) (Post.lift ?_) fun t ht => Post.pure (by rintro _ ⟨⟩; exact ht)
    refine RPost.any fun ⟨_, _, _, _⟩ => RPost.any fun ⟨_, _, _, _⟩ => RPost.any fun _ =>
      RPost.any fun _ => RPost.any fun _ => RPost.any fun _ => RPost.bind (P := fun q => q = r) (by simp [Tensor.dim, hA']; exact RPost.ok rfl) ?_
    rintro _ rfl
    exact RPost.any fun _ => RPost.any fun _ => RPost.any fun _ => RPost.any fun _ => RPost.any fun _ => RPost.any fun _ => RPost.any fun _ =>
      RPost.any fun _ => rows_reshape
  | weight => exact Post.pure (fun _ h => by cases h)
  | other => exact Post.pure (fun _ h => by cases h)

namespace Sequential

theorem child_mem {ms : List (Mod α)} {k : Nat} : Post (child ms k) fun m => m ∈ ms := by
  intro s m s' h
  simp only [child] at h
  split at h
  · cases h; exact List.mem_of_getElem? (by assumption)
  · cases h

theorem mjpInput_rows {id : Nat} {ms : List (Mod α)} (h : ∀ m ∈ ms, Rows m .input) {r : Nat} : ∀ (k : Nat) (A : Tensor α), HasRows r A →
    Post (mjpInput id ms k A) (HasRows r)
  | 0, A, hA => Post.pure hA
  | k + 1, A, hA => child_mem.bind fun m hm => Post.any fun x => Post.any fun v => (h m hm _ _ _ _ hA).bind fun o ho =>
      Post.need fun t ht => mjpInput_rows h k t (ho t ht)

theorem mjpWeight_rows {id : Nat} {ms : List (Mod α)} (h : ∀ m ∈ ms, Rows m .input) (hw : ∀ m ∈ ms, Rows m .weight) {r : Nat} :
    ∀ (k : Nat) (A : Tensor α) (acc : List (Tensor α)), HasRows r A → (∀ t ∈ acc, HasRows r t) →
    Post (mjpWeight id ms k A acc) fun l => ∀ t ∈ l, HasRows r t
  | 0, A, acc, hA, hacc => Post.pure hacc
  | k + 1, A, acc, hA, hacc => child_mem.bind fun m hm => Post.any fun x => Post.any fun v => (hw m hm _ _ _ _ hA).bind fun o ho => by
      have hacc' : ∀ t ∈ o.toList ++ acc, HasRows r t := by
        intro t ht
        rcases List.mem_append.1 ht with ht | ht
        · exact ho t (by simpa using ht)
        · exact hacc t ht
      dsimp only
      split
      · exact Post.pure hacc'
      · exact (h m hm _ _ _ _ hA).bind fun o' ho' => Post.need fun t ht => mjpWeight_rows h hw k t _ (ho' t ht) hacc'

theorem cat_rows {r : Nat} {l : List (Tensor α)} (h : ∀ t ∈ l, HasRows r t) : RPost (catOrNone 2 l) fun o => ∀ t, o = some t → HasRows r t := by
  cases l with
  | nil => exact RPost.ok (by simp)
  | cons a l =>
    refine RPost.mapSome ?_
    simp only [Tensor.cat]
    split
    · have : ∀ (l : List (Tensor α)) (a : Tensor α), HasRows r a → RPost (l.foldlM (fun r u => cat2 r u 2) a) (HasRows r) := by
        intro l
        induction l with
        | nil => exact fun a ha => RPost.ok ha
        | cons b l ih => exact fun a ha => (rows_cat2 ha).bind fun t ht => ih t ht
      exact this l a (h a (by simp))
    · exact RPost.error

theorem rows {id : Nat} {b : Bool} {ms : List (Mod α)} (h : ∀ m ∈ ms, Rows m .input) : Rows (mod id b ms) .input := fun x val A r hA =>
  Post.any fun _ => Post.any fun _ => Post.bind (P := HasRows r) (Post.lift (RPost.ok hA)) fun A hA =>
    (mjpInput_rows h _ _ hA).bind fun t ht => Post.pure (by rintro _ ⟨⟩; exact ht)

theorem rowsW {id : Nat} {b : Bool} {ms : List (Mod α)} (h : ∀ m ∈ ms, Rows m .input) (hw : ∀ m ∈ ms, Rows m .weight) : Rows (mod id b ms) .weight := fun x val A r hA =>
  Post.any fun _ => Post.any fun _ => Post.bind (P := HasRows r) (Post.lift (RPost.ok hA)) fun A hA =>
    (mjpWeight_rows h hw _ _ [] hA (by simp)).bind fun l hl => Post.lift (cat_rows hl)

theorem eyeFor_rows {val : Tensor α} {B : Nat} {s : List Nat} (hv : val.shape = B :: s) : RPost (eyeFor val) (HasRows (size s)) := by
  simp only [eyeFor, hv]; exact RPost.ok ⟨_, _, rfl⟩

theorem jacobian_rows {id : Nat} {b : Bool} {ms : List (Mod α)} (h : ∀ m ∈ ms, Rows m .input) {x val : Tensor α} {B : Nat} {s : List Nat}
    (hv : val.shape = B :: s) : Post ((mod id b ms).jacobian x (some val) .input) fun o => ∀ t, o = some t → HasRows (size s) t :=
  Post.any fun _ => Post.bind (P := fun v => v = val) (Post.pure rfl) fun v hv' => by
    subst hv'
    exact (Post.lift (eyeFor_rows hv)).bind fun A hA => (mjpInput_rows h _ _ hA).bind fun t ht => Post.pure (by rintro _ ⟨⟩; exact ht)

theorem jacobian_rowsW {id : Nat} {b : Bool} {ms : List (Mod α)} (h : ∀ m ∈ ms, Rows m .input) (hw : ∀ m ∈ ms, Rows m .weight)
    {x val : Tensor α} {B : Nat} {s : List Nat}
    (hv : val.shape = B :: s) : Post ((mod id b ms).jacobian x (some val) .weight) fun o => ∀ t, o = some t → HasRows (size s) t :=
  Post.any fun _ => Post.bind (P := fun v => v = val) (Post.pure rfl) fun v hv' => by
    subst hv'
    exact (Post.lift (eyeFor_rows hv)).bind fun A hA => (mjpWeight_rows h hw _ _ [] hA (by simp)).bind fun l hl => Post.lift (cat_rows hl)

end Sequential

namespace SkipConnection

theorem rows {id : Nat} {F : Mod α} {wrt : Wrt} (h : Rows F wrt) : Rows (mod id F) wrt := by
  intro x val A r hA
  refine Post.any fun l => Post.any fun tv => Post.any fun n => (Post.lift (rows_slice hA)).bind fun T hT => (h _ _ _ _ hT).bind fun o ho => ?_
  cases wrt with
  | input => exact (Post.lift (rows_slice hA)).bind fun H hH => Post.need fun t ht => (Post.lift (rows_add hH (ho t ht))).bind fun R hR =>
      Post.pure (by rintro _ ⟨⟩; exact hR)
  | weight => exact Post.pure ho
  | other => exact Post.pure (by simp)

/-- `jacobian(x, val)`: `val` is handed to the inner network, which therefore answers for `size s` outputs -/
theorem jacobian_rows {id : Nat} {F : Mod α} {x val : Tensor α} {B B' : Nat} {s s' : List Nat} {wrt : Wrt} (hx : x.shape = B' :: s')
    (hF : Post (F.jacobian x (some val) wrt) fun o => ∀ t, o = some t → HasRows (size s) t) :
    Post ((mod id F).jacobian x (some val) wrt) fun o => ∀ t, o = some t → HasRows (size s' + size s) t := by
  have hcat : ∀ (T A : Tensor α) (l q : Nat), HasRows l T → HasRows q A → RPost (cat2 T A 1) (HasRows (l + q)) := by
    rintro T A l q ⟨b, c, hT⟩ ⟨b', c', hA⟩
    simp only [cat2, hT, hA, List.getElem?_cons_succ, List.getElem?_cons_zero]; rpost
    exact ⟨b, c, by simp [ofFn]⟩
  have hnum : Post (liftM x.numel0 : Prog α Nat) fun l => l = size s' := Post.lift <| (numel0_eq x).mono fun l ⟨b, s, h1, h2⟩ => by
    rw [hx] at h1; cases h1; exact h2
  refine hF.bind fun o ho => Post.any fun b => hnum.bind fun l hl => Post.any fun _ => ?_
  subst hl
  cases wrt with
  | input =>
    refine Post.bind (P := fun t => t.shape = [b, size s']) (Post.lift ?_) fun o' ho' => ?_
    · simp only [Tensor.reshape]; rpost; rfl
    · refine Post.bind (P := HasRows (size s')) (Post.lift ?_) fun I hI => Post.need fun t ht =>
        (Post.lift (hcat _ _ _ _ hI (ho t ht))).bind fun R hR => Post.pure (by rintro _ ⟨⟩; exact hR)
      simp only [Tensor.diagEmbed, ho']
      exact RPost.ok ⟨_, _, rfl⟩
  | weight =>
    exact Post.need fun t ht => (Post.lift (hcat _ _ _ _ ⟨b, _, rfl⟩ (ho t ht))).bind fun R hR => Post.pure (by rintro _ ⟨⟩; exact hR)
  | other => exact Post.pure (by simp)

end SkipConnection
end

mutual
theorem Net.rows : {s s' : List Nat} → {n k p : Nat} → (N : Net s n s' k p) → Rows N.mod .input
  | _, _, _, _, _, .linear _ _ _ _ _ _ _ => RowsR.toMod fun _ => linear_rows _ _ _ _
  | _, _, _, _, _, .act a _ _ _ _ _ => by cases a <;> exact RowsR.toMod fun _ => diag_rows _
  | _, _, _, _, _, .flatten _ _ _ _ _ => RowsR.toMod fun _ => resh_rows _ _
  | _, _, _, _, _, .reshape _ _ _ _ _ _ _ _ _ => RowsR.toMod fun _ => resh_rows _ _
  | _, _, _, _, _, .l2norm _ _ _ _ _ _ _ => RowsR.toMod fun _ => jac_rows _
  | _, _, _, _, _, .conv _ _ _ _ => RowsR.toMod fun _ => conv_rows _ _ _
  | _, _, _, _, _, .upsample _ _ _ _ _ _ _ _ _ => RowsR.toMod fun _ => upsample_rows _ _
  | _, _, _, _, _, .maxpool _ g => maxpool_rows g.a _ _
  | _, _, _, _, _, .seq _ c => Sequential.rows c.rows
  | _, _, _, _, _, .skip _ _ ch => SkipConnection.rows (Sequential.rows ch.rows)
theorem Chain.rows : {s s' : List Nat} → {n k p l : Nat} → (c : Chain s n s' k p l) → ∀ m ∈ c.mods, Rows m .input
  | _, _, _, _, _, _, .nil _ _ _ _ => by simp [Chain.mods]
  | _, _, _, _, _, _, .snoc c m => by
    have h1 := c.rows
    have h2 := m.rows
    simp only [Chain.mods, List.mem_append, List.mem_singleton]
    rintro m' (h | rfl)
    · exact h1 _ h
    · exact h2
end

mutual
theorem Net.rowsW : {s s' : List Nat} → {n k p : Nat} → (N : Net s n s' k p) → N.FwdI → Rows N.mod .weight
  | _, _, _, _, _, .linear _ _ _ _ _ _ _, _ => RowsR.toMod fun _ => linear_rows _ _ _ _
  | _, _, _, _, _, .act a _ _ _ _ _, _ => by cases a <;> exact RowsR.toMod fun _ => diag_rows _
  | _, _, _, _, _, .flatten _ _ _ _ _, _ => RowsR.toMod fun _ => resh_rows _ _
  | _, _, _, _, _, .reshape _ _ _ _ _ _ _ _ _, _ => RowsR.toMod fun _ => resh_rows _ _
  | _, _, _, _, _, .l2norm _ _ _ _ _ _ _, _ => RowsR.toMod fun _ => jac_rows _
  | _, _, _, _, _, .conv _ _ _ _, h => False.elim h
  | _, _, _, _, _, .upsample _ _ _ _ _ _ _ _ _, _ => RowsR.toMod fun _ => upsample_rows _ _
  | _, _, _, _, _, .maxpool _ g, _ => maxpool_rows g.a _ _
  | _, _, _, _, _, .seq _ c, h => Sequential.rowsW c.rows (c.rowsW h)
  | _, _, _, _, _, .skip _ _ ch, h => SkipConnection.rows (Sequential.rowsW ch.rows (ch.rowsW h))
theorem Chain.rowsW : {s s' : List Nat} → {n k p l : Nat} → (c : Chain s n s' k p l) → c.FwdI → ∀ m ∈ c.mods, Rows m .weight
  | _, _, _, _, _, _, .nil _ _ _ _, _ => by simp [Chain.mods]
  | _, _, _, _, _, _, .snoc c m, h => by
    have h1 := c.rowsW h.1
    have h2 := m.rowsW h.2
    simp only [Chain.mods, List.mem_append, List.mem_singleton]
    rintro m' (h | rfl)
    · exact h1 _ h
    · exact h2
end

end NNJ
