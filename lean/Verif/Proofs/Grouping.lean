import Verif.Proofs.Calls

/-! The semantics of a network depends only on the list of its layers. -/

namespace NNJ
open Matrix

mutual
/-- the nonzero numbers of parameters of the layers -/
def Net.sz : {s s' : List Nat} → {n k p : Nat} → Net s n s' k p → List Nat
  | _, _, _, _, _, .linear _ _ bId i o _ _ => if o * i + biasLen bId o = 0 then [] else [o * i + biasLen bId o]
  | _, _, _, _, _, .act _ _ _ _ _ _ => []
  | _, _, _, _, _, .flatten _ _ _ _ _ => []
  | _, _, _, _, _, .reshape _ _ _ _ _ _ _ _ _ => []
  | _, _, _, _, _, .l2norm _ _ _ _ _ _ _ => []
  | _, _, _, _, _, .conv _ _ bId g =>
    if g.c2 * g.c1 * g.kh * g.kw + biasLen bId g.c2 = 0 then [] else [g.c2 * g.c1 * g.kh * g.kw + biasLen bId g.c2]
  | _, _, _, _, _, .upsample _ _ _ _ _ _ _ _ _ => []
  | _, _, _, _, _, .maxpool _ _ => []
  | _, _, _, _, _, .seq _ c => c.sz
  | _, _, _, _, _, .skip _ _ ch => ch.sz
def Chain.sz : {s s' : List Nat} → {n k p l : Nat} → Chain s n s' k p l → List Nat
  | _, _, _, _, _, _, .nil _ _ _ _ => []
  | _, _, _, _, _, _, .snoc c m => c.sz ++ m.sz
end

/-- what determines the results of calls -/
structure ASem where
  {n k p : Nat}
  S : Sem n k p
  fI : Prop
  fW : Prop
  sz : List Nat
  ids : List Nat

namespace ASem

/-- equality up to the form of the number of parameters -/
theorem ext_p {n k p p' : Nat} (h : p = p') {S : Sem n k p} {S' : Sem n k p'} {fI fI' fW fW' : Prop} {sz sz' ids ids' : List Nat}
    (hf : ∀ w x, S'.f w x = S.f (fun i => w (Fin.cast h i)) x)
    (hJ : ∀ w x, S'.J w x = S.J (fun i => w (Fin.cast h i)) x)
    (hJW : ∀ w x a i, S'.JW w x a (Fin.cast h i) = S.JW (fun i => w (Fin.cast h i)) x a i)
    (hQ : ∀ w x, S'.Q w x = S.Q (fun i => w (Fin.cast h i)) x)
    (hQW : ∀ w x a i, S'.QW w x a (Fin.cast h i) = S.QW (fun i => w (Fin.cast h i)) x a i)
    (hs : ∀ i j, S'.same (Fin.cast h i) (Fin.cast h j) = S.same i j)
    (hsm : ∀ w x, S'.smooth w x ↔ S.smooth (fun i => w (Fin.cast h i)) x)
    (h1 : fI ↔ fI') (h2 : fW ↔ fW') (h3 : sz = sz') (h4 : ids = ids') :
    (⟨S, fI, fW, sz, ids⟩ : ASem) = ⟨S', fI', fW', sz', ids'⟩ := by
  subst h
  obtain rfl := propext h1
  obtain rfl := propext h2
  subst h3 h4
  have : S = S' := by
    obtain ⟨f, J, JW, Q, QW, same, smooth⟩ := S
    obtain ⟨f', J', JW', Q', QW', same', smooth'⟩ := S'
    simp only [Fin.cast_eq_self] at *
    congr
    · funext w x; exact (hf w x).symm
    · funext w x; exact (hJ w x).symm
    · funext w x a i; exact (hJW w x a i).symm
    · funext w x; exact (hQ w x).symm
    · funext w x a i; exact (hQW w x a i).symm
    · funext i j; exact (hs i j).symm
    · funext w x; exact (propext (hsm w x)).symm
  rw [this]

/-- first `A`, then `C` (if they fit) -/
noncomputable def comp (A C : ASem) : ASem :=
  open Classical in
  if h : A.k = C.n then ⟨(h ▸ A.S : Sem A.n C.n A.p).comp C.S, A.fI ∧ C.fI, A.fW ∧ C.fW, A.sz ++ C.sz, A.ids ++ C.ids⟩ else A

theorem comp_mk {n l k p q : Nat} (S : Sem n l p) (S' : Sem l k q) (fI fI' fW fW' : Prop) (sz sz' ids ids' : List Nat) :
    comp ⟨S, fI, fW, sz, ids⟩ ⟨S', fI', fW', sz', ids'⟩ = ⟨S.comp S', fI ∧ fI', fW ∧ fW', sz ++ sz', ids ++ ids'⟩ := by
  unfold comp
  rw [dif_pos rfl]

def one (n : Nat) : ASem := ⟨Sem.id n, True, True, [], []⟩

def skip (A : ASem) : ASem := ⟨A.S.skip, A.fI, 0 < A.p ∧ A.fW, A.sz, A.ids⟩

theorem comp_assoc {n m l k p q r : Nat} (S1 : Sem n m p) (S2 : Sem m l q) (S3 : Sem l k r) (a1 a2 a3 b1 b2 b3 : Prop)
    (c1 c2 c3 d1 d2 d3 : List Nat) :
    comp (comp ⟨S1, a1, b1, c1, d1⟩ ⟨S2, a2, b2, c2, d2⟩) ⟨S3, a3, b3, c3, d3⟩ =
      comp ⟨S1, a1, b1, c1, d1⟩ (comp ⟨S2, a2, b2, c2, d2⟩ ⟨S3, a3, b3, c3, d3⟩) := by
  simp only [comp_mk]
  have e1 : ∀ w : Fin (p + (q + r)) → ℝ, wl (wl fun i => w (Fin.cast (Nat.add_assoc p q r) i)) = wl w := fun w => by
    funext i; exact congrArg w (Fin.ext rfl)
  have e2 : ∀ w : Fin (p + (q + r)) → ℝ, wr (wl fun i => w (Fin.cast (Nat.add_assoc p q r) i)) = wl (wr w) := fun w => by
    funext i; exact congrArg w (Fin.ext rfl)
  have e3 : ∀ w : Fin (p + (q + r)) → ℝ, wr (fun i => w (Fin.cast (Nat.add_assoc p q r) i)) = wr (wr w) := fun w => by
    funext i; exact congrArg w (Fin.ext (Nat.add_assoc p q i))
  have c1 : ∀ i : Fin p, Fin.cast (Nat.add_assoc p q r) (Fin.castAdd r (Fin.castAdd q i)) = Fin.castAdd (q + r) i := fun _ => rfl
  have c2 : ∀ i : Fin q, Fin.cast (Nat.add_assoc p q r) (Fin.castAdd r (Fin.natAdd p i)) = Fin.natAdd p (Fin.castAdd r i) := fun _ => rfl
  have c3 : ∀ i : Fin r, Fin.cast (Nat.add_assoc p q r) (Fin.natAdd (p + q) i) = Fin.natAdd p (Fin.natAdd q i) := fun i =>
    Fin.ext (Nat.add_assoc p q i)
  refine ext_p (Nat.add_assoc p q r) ?_ ?_ ?_ ?_ ?_ ?_ ?_ and_assoc and_assoc (List.append_assoc _ _ _) (List.append_assoc _ _ _)
  · intro w x; simp only [Sem.comp, e1, e2, e3]
  · intro w x; simp only [Sem.comp, e1, e2, e3, Matrix.mul_assoc]
  · intro w x a i
    simp only [Sem.comp, e1, e2, e3, mul_hcat]
    induction i using Fin.addCases with
    | left i =>
      induction i using Fin.addCases with
      | left i => rw [c1, hcat_left, hcat_left, hcat_left, Matrix.mul_assoc]
      | right i => rw [c2, hcat_right, hcat_left, hcat_left, hcat_right]
    | right i => rw [c3, hcat_right, hcat_right, hcat_right]
  · intro w x; simp only [Sem.comp, e1, e2, e3, Matrix.mul_assoc]
  · intro w x a i
    simp only [Sem.comp, e1, e2, e3, mul_hcat]
    induction i using Fin.addCases with
    | left i =>
      induction i using Fin.addCases with
      | left i => rw [c1, hcat_left, hcat_left, hcat_left, Matrix.mul_assoc]
      | right i => rw [c2, hcat_right, hcat_left, hcat_left, hcat_right]
    | right i => rw [c3, hcat_right, hcat_right, hcat_right]
  · intro i j
    simp only [Sem.comp]
    refine Fin.addCases (fun i => Fin.addCases (fun i => ?_) (fun i => ?_) i) (fun i => ?_) i <;>
    refine Fin.addCases (fun j => Fin.addCases (fun j => ?_) (fun j => ?_) j) (fun j => ?_) j <;>
    simp only [c1, c2, c3, Fin.addCases_left, Fin.addCases_right]
  · intro w x; simp only [Sem.comp, e1, e2, e3, and_assoc]

theorem comp_one {n k p : Nat} (S : Sem n k p) (fI fW : Prop) (sz ids : List Nat) : comp ⟨S, fI, fW, sz, ids⟩ (one k) = ⟨S, fI, fW, sz, ids⟩ := by
  unfold one
  rw [comp_mk]
  refine ext_p rfl ?_ ?_ ?_ ?_ ?_ ?_ ?_ (by simp) (by simp) (List.append_nil _) (List.append_nil _)
  · intro w x; rfl
  · intro w x; simp only [Sem.comp, Sem.id, Matrix.one_mul]; rfl
  · intro w x a i
    simp only [Sem.comp, Sem.id, Matrix.one_mul]
    exact (hcat_left (S.JW (fun i => w i) x) (0 : Matrix (Fin k) (Fin 0) ℝ) a i).symm
  · intro w x; simp only [Sem.comp, Sem.id, Matrix.one_mul]; rfl
  · intro w x a i
    simp only [Sem.comp, Sem.id, Matrix.one_mul]
    exact (hcat_left (S.QW (fun i => w i) x) (0 : Matrix (Fin k) (Fin 0) ℝ) a i).symm
  · intro i j
    simp only [Sem.comp]
    have key : ∀ i : Fin (p + 0), ∃ i' : Fin p, i = Fin.castAdd 0 i' := fun i => ⟨i, rfl⟩
    obtain ⟨i, rfl⟩ := key i
    obtain ⟨j, rfl⟩ := key j
    simp only [Fin.addCases_left]
    rfl
  · intro w x; simp only [Sem.comp, Sem.id, and_true]; rfl

theorem one_comp {n k p : Nat} (S : Sem n k p) (fI fW : Prop) (sz ids : List Nat) : comp (one n) ⟨S, fI, fW, sz, ids⟩ = ⟨S, fI, fW, sz, ids⟩ := by
  unfold one
  rw [comp_mk]
  have h0 : 0 + p = p := Nat.zero_add p
  have e : ∀ w : Fin p → ℝ, wr (p := 0) (q := p) (fun i => w (Fin.cast h0 i)) = w := fun w => by
    funext i; exact congrArg w (Fin.ext (Nat.zero_add i))
  have c : ∀ i : Fin p, Fin.cast h0 (Fin.natAdd 0 i) = i := fun i => Fin.ext (Nat.zero_add i)
  refine ext_p h0 ?_ ?_ ?_ ?_ ?_ ?_ ?_ (by simp) (by simp) (List.nil_append _) (List.nil_append _)
  · intro w x; simp only [Sem.comp, Sem.id, e]
  · intro w x; simp only [Sem.comp, Sem.id, Matrix.mul_one, e]
  · intro w x a i
    simp only [Sem.comp, Sem.id, e]
    induction i using Fin.addCases with
    | left i => exact i.elim0
    | right i => rw [hcat_right, c]
  · intro w x; simp only [Sem.comp, Sem.id, Matrix.mul_one, e]
  · intro w x a i
    simp only [Sem.comp, Sem.id, e]
    induction i using Fin.addCases with
    | left i => exact i.elim0
    | right i => rw [hcat_right, c]
  · intro i j
    simp only [Sem.comp]
    induction i using Fin.addCases with
    | left i => exact i.elim0
    | right i =>
      induction j using Fin.addCases with
      | left j => exact j.elim0
      | right j => simp only [Fin.addCases_right, c]
  · intro w x; simp only [Sem.comp, Sem.id, e, true_and]

end ASem

noncomputable def Net.asem {s s' : List Nat} {n k p : Nat} (N : Net s n s' k p) : ASem := ⟨N.sem, N.FwdI, N.FwdW, N.sz, N.paramIds⟩
noncomputable def Chain.asem {s s' : List Nat} {n k p l : Nat} (c : Chain s n s' k p l) : ASem := ⟨c.sem, c.FwdI, c.FwdW, c.sz, c.paramIds⟩

mutual
/-- the semantics of `A` followed by a layer, or by a list of layers -/
noncomputable def Layer.interp : Layer → ASem → ASem
  | .basic M, A => A.comp M.net.asem
  | .skip L, A => A.comp (Layer.interpL L (ASem.one A.k)).skip
noncomputable def Layer.interpL : List Layer → ASem → ASem
  | [], A => A
  | a :: L, A => Layer.interpL L (a.interp A)
end

theorem Layer.interpL_append (L L' : List Layer) (A : ASem) : Layer.interpL (L ++ L') A = Layer.interpL L' (Layer.interpL L A) := by
  induction L generalizing A with
  | nil => simp only [List.nil_append, Layer.interpL]
  | cons a L ih => simp only [List.cons_append, Layer.interpL, ih]

theorem Layer.interpL_basic (M : AnyNet) (A : ASem) : Layer.interpL [.basic M] A = A.comp M.net.asem := by
  simp only [Layer.interpL, Layer.interp]

mutual
theorem Net.interp_eq : {s s' : List Nat} → {n k p : Nat} → (N : Net s n s' k p) → {m q : Nat} → (S : Sem m n q) → (a b : Prop) → (c d : List Nat) →
    Layer.interpL N.layers ⟨S, a, b, c, d⟩ = ASem.comp ⟨S, a, b, c, d⟩ N.asem
  | _, _, _, _, _, .linear _ _ _ _ _ _ _, _, _, _, _, _, _, _ => by rw [Net.layers, Layer.interpL_basic]
  | _, _, _, _, _, .act _ _ _ _ _ _, _, _, _, _, _, _, _ => by rw [Net.layers, Layer.interpL_basic]
  | _, _, _, _, _, .flatten _ _ _ _ _, _, _, _, _, _, _, _ => by rw [Net.layers, Layer.interpL_basic]
  | _, _, _, _, _, .reshape _ _ _ _ _ _ _ _ _, _, _, _, _, _, _, _ => by rw [Net.layers, Layer.interpL_basic]
  | _, _, _, _, _, .l2norm _ _ _ _ _ _ _, _, _, _, _, _, _, _ => by rw [Net.layers, Layer.interpL_basic]
  | _, _, _, _, _, .conv _ _ _ _, _, _, _, _, _, _, _ => by rw [Net.layers, Layer.interpL_basic]
  | _, _, _, _, _, .upsample _ _ _ _ _ _ _ _ _, _, _, _, _, _, _, _ => by rw [Net.layers, Layer.interpL_basic]
  | _, _, _, _, _, .maxpool _ _, _, _, _, _, _, _, _ => by rw [Net.layers, Layer.interpL_basic]
  | _, _, _, _, _, .seq _ ch, _, _, S, a, b, c, d => by
    rw [Net.layers, Chain.interp_eq ch S a b c d, Net.asem, Chain.asem]
    simp only [Net.sem, Net.FwdI, Net.FwdW, Net.sz, Net.paramIds]
  | _, _, n, _, _, .skip _ _ ch, _, _, S, a, b, c, d => by
    rw [Net.layers, Layer.interpL, Layer.interpL, Layer.interp]
    have := Chain.interp_eq ch (Sem.id n) True True [] []
    unfold ASem.one
    rw [this]
    have h1 := ASem.one_comp ch.sem ch.FwdI ch.FwdW ch.sz ch.paramIds
    unfold ASem.one at h1
    rw [Chain.asem, h1, Net.asem]
    simp only [Net.sem, Net.FwdI, Net.FwdW, Net.sz, Net.paramIds, ASem.skip]
theorem Chain.interp_eq : {s s' : List Nat} → {n k p l : Nat} → (ch : Chain s n s' k p l) → {m q : Nat} → (S : Sem m n q) → (a b : Prop) → (c d : List Nat) →
    Layer.interpL ch.layers ⟨S, a, b, c, d⟩ = ASem.comp ⟨S, a, b, c, d⟩ ch.asem
  | _, _, _, _, _, _, .nil _ n _ _, _, _, S, a, b, c, d => by
    have h := ASem.comp_one S a b c d
    unfold ASem.one at h
    rw [Chain.layers, Layer.interpL, Chain.asem]
    simp only [Chain.sem, Chain.FwdI, Chain.FwdW, Chain.sz, Chain.paramIds]
    exact h.symm
  | _, _, _, _, _, _, .snoc ch N, _, _, S, a, b, c, d => by
    rw [Chain.layers, Layer.interpL_append, Chain.interp_eq ch S a b c d, Chain.asem, ASem.comp_mk, Net.interp_eq N, ← ASem.comp_mk, Net.asem,
      ASem.comp_assoc, ASem.comp_mk (S := ch.sem), Chain.asem]
    simp only [Chain.sem, Chain.FwdI, Chain.FwdW, Chain.sz, Chain.paramIds]
end

theorem Net.asem_congr {s s' t t' : List Nat} {n k p k' p' : Nat} {N : Net s n s' k p} {N' : Net t n t' k' p'} (h : N.layers = N'.layers) :
    N.asem = N'.asem := by
  have h1 := N.interp_eq (Sem.id n) True True [] []
  have h2 := N'.interp_eq (Sem.id n) True True [] []
  have e1 := ASem.one_comp N.sem N.FwdI N.FwdW N.sz N.paramIds
  have e2 := ASem.one_comp N'.sem N'.FwdI N'.FwdW N'.sz N'.paramIds
  unfold ASem.one at e1 e2
  rw [Net.asem, Net.asem, ← e1, ← e2]
  rw [Net.asem] at h1 h2
  rw [← h1, ← h2, h]

/-! ### the blocks of a full weight-space metric -/

/-- the tensors are the diagonal blocks of `Z` with the given sizes, from offset `off` on -/
def BlocksAt (B : Nat) (Z : Fin B → Nat → Nat → ℝ) : Nat → List Nat → List (Tensor ℝ) → Prop
  | _, [], [] => True
  | off, q :: qs, t :: ts => IsMat t B q q (fun b i j => Z b (off + i) (off + j)) ∧ BlocksAt B Z (off + q) qs ts
  | _, _, _ => False

theorem BlocksAt.det {B : Nat} {Z : Fin B → Nat → Nat → ℝ} : {off : Nat} → {qs : List Nat} → {ts ts' : List (Tensor ℝ)} →
    BlocksAt B Z off qs ts → BlocksAt B Z off qs ts' → List.Forall₂ TEq ts ts'
  | _, [], [], [], _, _ => .nil
  | _, _ :: _, _ :: _, _ :: _, h, h' => .cons (teq_mat h.1 h'.1) (BlocksAt.det h.2 h'.2)

theorem BlocksAt.append {B : Nat} {Z : Fin B → Nat → Nat → ℝ} : {off : Nat} → {qs qs' : List Nat} → {ts ts' : List (Tensor ℝ)} →
    BlocksAt B Z off qs ts → BlocksAt B Z (off + qs.sum) qs' ts' → BlocksAt B Z off (qs ++ qs') (ts ++ ts')
  | _, [], _, [], _, _, h' => h'
  | off, q :: qs, _, _ :: _, _, h, h' => ⟨h.1, BlocksAt.append h.2 (by rw [List.sum_cons, ← Nat.add_assoc] at h'; exact h')⟩

theorem PyVal.leavesList_append (vs vs' : List (PyVal ℝ)) : PyVal.leavesList (vs ++ vs') = PyVal.leavesList vs ++ PyVal.leavesList vs' := by
  induction vs with
  | nil => simp only [List.nil_append, PyVal.leavesList]
  | cons v vs ih => simp only [List.cons_append, PyVal.leavesList, ih, List.append_assoc]

mutual
theorem Net.sz_sum : {s s' : List Nat} → {n k p : Nat} → (N : Net s n s' k p) → N.sz.sum = p ∧ ∀ q ∈ N.sz, 0 < q
  | _, _, _, _, _, .linear _ _ _ _ _ _ _ => by rw [Net.sz]; split <;> simp_all; try omega
  | _, _, _, _, _, .act _ _ _ _ _ _ => by simp [Net.sz]
  | _, _, _, _, _, .flatten _ _ _ _ _ => by simp [Net.sz]
  | _, _, _, _, _, .reshape _ _ _ _ _ _ _ _ _ => by simp [Net.sz]
  | _, _, _, _, _, .l2norm _ _ _ _ _ _ _ => by simp [Net.sz]
  | _, _, _, _, _, .conv _ _ _ _ => by rw [Net.sz]; split <;> simp_all; try omega
  | _, _, _, _, _, .upsample _ _ _ _ _ _ _ _ _ => by simp [Net.sz]
  | _, _, _, _, _, .maxpool _ _ => by simp [Net.sz]
  | _, _, _, _, _, .seq _ c => by rw [Net.sz]; exact c.sz_sum
  | _, _, _, _, _, .skip _ _ c => by rw [Net.sz]; exact c.sz_sum
theorem Chain.sz_sum : {s s' : List Nat} → {n k p l : Nat} → (c : Chain s n s' k p l) → c.sz.sum = p ∧ ∀ q ∈ c.sz, 0 < q
  | _, _, _, _, _, _, .nil _ _ _ _ => by simp [Chain.sz]
  | _, _, _, _, _, _, .snoc c m => by
    rw [Chain.sz]
    refine ⟨by rw [List.sum_append, c.sz_sum.1, m.sz_sum.1], fun q hq => ?_⟩
    rcases List.mem_append.1 hq with h | h
    · exact c.sz_sum.2 q h
    · exact m.sz_sum.2 q h
end

theorem Net.sz_nil {s s' : List Nat} {n k p : Nat} (N : Net s n s' k p) (h : p = 0) : N.sz = [] := by
  have h1 := N.sz_sum
  rcases hs : N.sz with _ | ⟨q, qs⟩
  · rfl
  · rw [hs, h, List.sum_cons] at h1
    have := h1.2 q (by simp)
    omega

theorem blocksAt_leaf {B p off : Nat} {v : PyVal ℝ} {Z : Fin B → Matrix (Fin p) (Fin p) ℝ} {Z' : Fin B → Nat → Nat → ℝ}
    (hZ : ∀ b i j, Z b i j = Z' b (off + i) (off + j)) (hp : 0 < p) (h : ∃ t, v = .tensor t ∧ IsMat t B p p Z) :
    BlocksAt B Z' off (if p = 0 then [] else [p]) v.leaves := by
  obtain ⟨t, rfl, h⟩ := h
  rw [if_neg (by omega), PyVal.leaves]
  refine ⟨?_, trivial⟩
  have : Z = fun b (i j : Fin p) => Z' b (off + i) (off + j) := by funext b i j; exact hZ b i j
  rw [this] at h
  exact h

mutual
theorem Net.blocks_leaves : {s s' : List Nat} → {n k p : Nat} → (N : Net s n s' k p) → {v : PyVal ℝ} → {B off : Nat} →
    {Z : Fin B → Matrix (Fin p) (Fin p) ℝ} → {Z' : Fin B → Nat → Nat → ℝ} → (∀ b i j, Z b i j = Z' b (off + i) (off + j)) → 0 < p →
    N.Blocks v B Z → BlocksAt B Z' off N.sz v.leaves
  | _, _, _, _, _, .linear _ _ _ _ _ _ _, _, _, _, _, _, hZ, hp, h => by
    rw [Net.sz]; rw [Net.Blocks] at h; exact blocksAt_leaf hZ hp h
  | _, _, _, _, _, .act _ _ _ _ _ _, _, _, _, _, _, _, hp, _ => by omega
  | _, _, _, _, _, .flatten _ _ _ _ _, _, _, _, _, _, _, hp, _ => by omega
  | _, _, _, _, _, .reshape _ _ _ _ _ _ _ _ _, _, _, _, _, _, _, hp, _ => by omega
  | _, _, _, _, _, .l2norm _ _ _ _ _ _ _, _, _, _, _, _, _, hp, _ => by omega
  | _, _, _, _, _, .conv _ _ _ _, _, _, _, _, _, hZ, hp, h => by
    rw [Net.sz]; rw [Net.Blocks] at h; exact blocksAt_leaf hZ hp h
  | _, _, _, _, _, .upsample _ _ _ _ _ _ _ _ _, _, _, _, _, _, _, hp, _ => by omega
  | _, _, _, _, _, .maxpool _ _, _, _, _, _, _, _, hp, _ => by omega
  | _, _, _, _, _, .seq _ c, _, _, _, _, _, hZ, _, h => by
    rw [Net.Blocks] at h
    obtain ⟨vs, rfl, h⟩ := h
    rw [Net.sz, PyVal.leaves]
    exact Chain.blocks_leaves c hZ h
  | _, _, _, _, _, .skip _ _ c, _, _, _, _, _, hZ, _, h => by
    rw [Net.Blocks] at h
    obtain ⟨vs, rfl, h⟩ := h
    rw [Net.sz, PyVal.leaves]
    exact Chain.blocks_leaves c hZ h
theorem Chain.blocks_leaves : {s s' : List Nat} → {n k p l : Nat} → (c : Chain s n s' k p l) → {vs : List (PyVal ℝ)} → {B off : Nat} →
    {Z : Fin B → Matrix (Fin p) (Fin p) ℝ} → {Z' : Fin B → Nat → Nat → ℝ} → (∀ b i j, Z b i j = Z' b (off + i) (off + j)) →
    c.Blocks vs B Z → BlocksAt B Z' off c.sz (PyVal.leavesList vs)
  | _, _, _, _, _, _, .nil _ _ _ _, _, _, _, _, _, _, h => by
    rw [Chain.Blocks] at h
    subst h
    rw [Chain.sz, PyVal.leavesList]
    trivial
  | _, _, _, _, _, _, @Chain.snoc _ _ _ _ _ _ p q _ c m, _, B, off, Z, Z', hZ, h => by
    simp only [Chain.Blocks] at h
    rw [Chain.sz]
    have hul : ∀ b i j, blockUL (Z b) i j = Z' b (off + i) (off + j) := fun b i j => hZ b (Fin.castAdd q i) (Fin.castAdd q j)
    split at h
    · rename_i hq
      rw [m.sz_nil hq, List.append_nil]
      exact Chain.blocks_leaves c hul h
    · rename_i hq
      obtain ⟨vs, v, rfl, h1, h2⟩ := h
      rw [PyVal.leavesList_append]
      refine (Chain.blocks_leaves c hul h1).append ?_
      rw [c.sz_sum.1, PyVal.leavesList, PyVal.leavesList, List.append_nil]
      exact Net.blocks_leaves m (fun b i j => by
        have := hZ b (Fin.natAdd p i) (Fin.natAdd p j)
        simp only [Fin.val_natAdd, ← Nat.add_assoc] at this
        exact this) (Nat.pos_of_ne_zero hq) h2
end

theorem Net.leaves_det {s s' : List Nat} {n k p B : Nat} {N N' : Net s n s' k p} (hsz : N.sz = N'.sz) {v v' : PyVal ℝ}
    {Z : Fin B → Matrix (Fin p) (Fin p) ℝ} (h : OptV p (fun v => N.Blocks v B Z) v) (h' : OptV p (fun v => N'.Blocks v B Z) v') :
    List.Forall₂ TEq v.leaves v'.leaves := by
  unfold OptV at h h'
  split at h
  · rename_i h0
    rw [if_pos h0] at h'
    subst h h'
    rw [PyVal.leaves]
    exact .nil
  · rename_i h0
    rw [if_neg h0] at h'
    have key : ∀ b (i j : Fin p), Z b i j = (fun b (i j : Nat) => if hi : i < p then if hj : j < p then Z b ⟨i, hi⟩ ⟨j, hj⟩ else 0 else 0) b (0 + i) (0 + j) := by
      intro b i j
      simp
    have h1 := N.blocks_leaves (Z' := fun b (i j : Nat) => if hi : i < p then if hj : j < p then Z b ⟨i, hi⟩ ⟨j, hj⟩ else 0 else 0) (off := 0) key (Nat.pos_of_ne_zero h0) h
    have h2 := N'.blocks_leaves (Z' := fun b (i j : Nat) => if hi : i < p then if hj : j < p then Z b ⟨i, hi⟩ ⟨j, hj⟩ else 0 else 0) (off := 0) key (Nat.pos_of_ne_zero h0) h'
    rw [hsz] at h1
    exact h1.det h2

end NNJ
