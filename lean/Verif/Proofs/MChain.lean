import Verif.Proofs.Contract
import Verif.Proofs.Struct
import Verif.Proofs.Leaf
import Verif.Model.Sequential

/-! Lists of modules with contracts. -/

namespace NNJ
open Tensor Matrix

/-- `l` modules, each fed with the output of the previous one. -/
inductive MChain : List Nat → Nat → List Nat → Nat → Nat → Nat → Type
  | nil (s : List Nat) (n : Nat) : MChain s n s n 0 0
  | snoc {s s' s'' : List Nat} {n k j p q l : Nat} (c : MChain s n s' k p l) (M : Mdl s' k s'' j q) :
      MChain s n s'' j (p + q) (l + 1)

/-- upper left and lower right block -/
def ulB {p q : Nat} (Z : Matrix (Fin (p + q)) (Fin (p + q)) ℝ) : Matrix (Fin p) (Fin p) ℝ :=
  fun i j => Z (Fin.castAdd q i) (Fin.castAdd q j)
def lrB {p q : Nat} (Z : Matrix (Fin (p + q)) (Fin (p + q)) ℝ) : Matrix (Fin q) (Fin q) ℝ :=
  fun i j => Z (Fin.natAdd p i) (Fin.natAdd p j)

namespace MChain

variable {sI sO : List Nat} {n k p l : Nat}

def mods : {sI sO : List Nat} → {n k p l : Nat} → MChain sI n sO k p l → List (Mod ℝ)
  | _, _, _, _, _, _, .nil _ _ => []
  | _, _, _, _, _, _, .snoc c M => c.mods ++ [M.m]

def ids : {sI sO : List Nat} → {n k p l : Nat} → MChain sI n sO k p l → List Nat
  | _, _, _, _, _, _, .nil _ _ => []
  | _, _, _, _, _, _, .snoc c M => c.ids ++ M.ids

def Wired (q : Nat) : {sI sO : List Nat} → {n k p l : Nat} → MChain sI n sO k p l → Store ℝ → Prop
  | _, _, _, _, _, _, .nil _ _, _ => True
  | _, _, _, _, _, _, .snoc c M, s => c.Wired q s ∧ M.wired s ∧ s.hooks M.m.id = [q]

def S : {sI sO : List Nat} → {n k p l : Nat} → MChain sI n sO k p l → Sem n k p
  | _, _, _, _, _, _, .nil _ n => Sem.id n
  | _, _, _, _, _, _, .snoc c M => c.S.comp M.S

def w : {sI sO : List Nat} → {n k p l : Nat} → MChain sI n sO k p l → Store ℝ → Fin p → ℝ
  | _, _, _, _, _, _, .nil _ _, _ => fun _ => 0
  | _, _, _, _, _, _, .snoc c M, s => Fin.append (c.w s) (M.w s)

/-- output for each sample -/
def Y (c : MChain sI n sO k p l) (s : Store ℝ) {B : Nat} (X : Fin B → Fin n → ℝ) (b : Fin B) : Fin k → ℝ := c.S.f (c.w s) (X b)

/-- the caches of the children are those of a forward pass -/
def kids : {sI sO : List Nat} → {n k p l : Nat} → MChain sI n sO k p l → (B : Nat) → (Fin B → Fin n → ℝ) → Store ℝ → Prop
  | _, _, _, _, _, _, .nil _ _, _, _, _ => True
  | _, _, _, _, _, _, .snoc c M, B, X, s => c.kids B X s ∧ M.cache B (c.Y s X) s

/-- the list holds the input and the outputs of all layers -/
def listOk (L : List (Tensor ℝ)) : {sI sO : List Nat} → {n k p l : Nat} → MChain sI n sO k p l → (B : Nat) → (Fin B → Fin n → ℝ) → (Fin p → ℝ) → Prop
  | _, _, _, _, _, _, .nil s n, B, X, _ => ∃ t, L[0]? = some t ∧ IsBatch t B s n X
  | _, _, _, _, _, _, @MChain.snoc _ _ s'' _ _ j _ _ l c M, B, X, w =>
    listOk L c B X (wl w) ∧ ∃ t, L[l + 1]? = some t ∧ IsBatch t B s'' j fun b => (c.S.comp M.S).f w (X b)

/-- number of children with parameters -/
def npar : {sI sO : List Nat} → {n k p l : Nat} → MChain sI n sO k p l → Nat
  | _, _, _, _, _, _, .nil _ _ => 0
  | _, _, _, _, _, _, @MChain.snoc _ _ _ _ _ _ _ q _ c _ => c.npar + if q = 0 then 0 else 1

/-- one block for every child with parameters -/
def blocks : {sI sO : List Nat} → {n k p l : Nat} → MChain sI n sO k p l → List (PyVal ℝ) → (B : Nat) → (Fin B → Matrix (Fin p) (Fin p) ℝ) → Prop
  | _, _, _, _, _, _, .nil _ _, vs, _, _ => vs = []
  | _, _, _, _, _, _, @MChain.snoc _ _ _ _ _ _ _ q _ c M, vs, B, Z =>
    if q = 0 then c.blocks vs B fun b => ulB (Z b)
    else ∃ vs' v, vs = vs' ++ [v] ∧ c.blocks vs' B (fun b => ulB (Z b)) ∧ M.blocks v B fun b => lrB (Z b)

/-- the list can be used as metric -/
def args (fd : Bool) (vs : List (PyVal ℝ)) : {sI sO : List Nat} → {n k p l : Nat} → MChain sI n sO k p l → (B : Nat) → (Fin B → Matrix (Fin p) (Fin p) ℝ) → Prop
  | _, _, _, _, _, _, .nil _ _, _, _ => True
  | _, _, _, _, _, _, @MChain.snoc _ _ _ _ _ _ _ q _ c M, B, Z =>
    args fd vs c B (fun b => ulB (Z b)) ∧ (q ≠ 0 → ∃ v, vs[c.npar]? = some v ∧ M.arg fd v B fun b => lrB (Z b))

/-- all modules satisfy `P` -/
def All (P : ∀ {s s' : List Nat} {n k p : Nat}, Mdl s n s' k p → Prop) : {sI sO : List Nat} → {n k p l : Nat} → MChain sI n sO k p l → Prop
  | _, _, _, _, _, _, .nil _ _ => True
  | _, _, _, _, _, _, .snoc c M => All P c ∧ P M

def fwdI (c : MChain sI n sO k p l) : Prop := All (fun M => M.fwdI) c
def fwdW (c : MChain sI n sO k p l) : Prop := All (fun M => M.fwdW) c

/-- `jmjTp` with respect to the weights goes through: a layer that comes after the first parameter supports it with respect to the input, a layer with parameters
supports it with respect to its weights -/
def pushW : {sI sO : List Nat} → {n k p l : Nat} → MChain sI n sO k p l → Prop
  | _, _, _, _, _, _, .nil _ _ => True
  | _, _, _, _, _, _, @MChain.snoc _ _ _ _ _ _ p q _ c M => pushW c ∧ (p = 0 ∨ M.fwdI) ∧ (q = 0 ∨ M.pushW)

/-- all modules satisfy the contract -/
def AllGood : {sI sO : List Nat} → {n k p l : Nat} → MChain sI n sO k p l → Prop
  | _, _, _, _, _, _, .nil s n => size s = n ∧ 0 < n
  | _, _, _, _, _, _, .snoc c M => c.AllGood ∧ Good M

/-- all modules satisfy the part of the contract about backward products with respect to the input -/
def AllGoodI : {sI sO : List Nat} → {n k p l : Nat} → MChain sI n sO k p l → Prop
  | _, _, _, _, _, _, .nil s n => size s = n ∧ 0 < n
  | _, _, _, _, _, _, .snoc c M => c.AllGoodI ∧ GoodI M

theorem AllGood.toI {c : MChain sI n sO k p l} (h : c.AllGood) : c.AllGoodI := by
  induction c with
  | nil => exact h
  | snoc c M ih => exact ⟨ih h.1, h.2.toGoodI⟩

theorem AllGood.all {c : MChain sI n sO k p l} (h : c.AllGood) : All (fun M => Good M) c := by
  induction c with
  | nil => trivial
  | snoc c M ih => exact ⟨ih h.1, h.2⟩

instance {c : MChain sI n sO k p l} : Coe c.AllGood c.AllGoodI := ⟨AllGood.toI⟩

theorem mods_length (c : MChain sI n sO k p l) : c.mods.length = l := by
  induction c with
  | nil => rfl
  | snoc c M ih => simp [mods, ih]

theorem wl_append {p q : Nat} (u : Fin p → ℝ) (v : Fin q → ℝ) : wl (Fin.append u v) = u := by
  funext i; simp [wl]
theorem wr_append {p q : Nat} (u : Fin p → ℝ) (v : Fin q → ℝ) : wr (Fin.append u v) = v := by
  funext i; simp [wr]

theorem sizes {c : MChain sI n sO k p l} (h : c.AllGoodI) : size sI = n ∧ 0 < n ∧ size sO = k ∧ 0 < k := by
  induction c with
  | nil => exact ⟨h.1, h.2, h.1, h.2⟩
  | snoc c M ih => exact ⟨(ih h.1).1, (ih h.1).2.1, h.2.hk, h.2.kpos⟩

theorem nParams {c : MChain sI n sO k p l} (h : c.AllGood) : Sequential.nParams c.mods = p := by
  induction c with
  | nil => rfl
  | snoc c M ih =>
    have := ih h.1
    simp only [Sequential.nParams, mods, List.map_append, List.sum_append] at *
    rw [this]
    simp [h.2.nParams]

theorem w_of {c : MChain sI n sO k p l} (h : c.AllGoodI) {s s' : Store ℝ} (e : s'.param = s.param) : c.w s' = c.w s := by
  induction c with
  | nil => rfl
  | snoc c M ih => simp only [w, ih h.1, h.2.w_of e]

theorem Y_of {c : MChain sI n sO k p l} (h : c.AllGoodI) {s s' : Store ℝ} (e : s'.param = s.param) {B : Nat}
    (X : Fin B → Fin n → ℝ) : c.Y s' X = c.Y s X := by
  funext b; simp only [Y, c.w_of h e]

theorem wired_of {c : MChain sI n sO k p l} (h : c.AllGoodI) {q : Nat} {s s' : Store ℝ} (e : Wiring s s') (hw : c.Wired q s) :
    c.Wired q s' := by
  induction c with
  | nil => trivial
  | snoc c M ih => exact ⟨ih h.1 hw.1, h.2.wired_of e hw.2.1, by rw [e.hooks]; exact hw.2.2⟩

theorem kids_frame {c : MChain sI n sO k p l} (h : c.AllGoodI) {B : Nat} {X : Fin B → Fin n → ℝ} {s s' : Store ℝ} (e : s'.param = s.param)
    (hf : ∀ i ∈ c.ids, s'.fmaps i = s.fmaps i ∧ s'.pidx i = s.pidx i) (hk : c.kids B X s) : c.kids B X s' := by
  induction c with
  | nil => trivial
  | snoc c M ih =>
    refine ⟨ih h.1 (fun i hi => hf i (List.mem_append_left _ hi)) hk.1, ?_⟩
    rw [c.Y_of h.1 e]
    exact h.2.cache_frame e (fun i hi => hf i (List.mem_append_right _ hi)) hk.2

theorem listOk_append {c : MChain sI n sO k p l} {L E : List (Tensor ℝ)} {B : Nat} {X : Fin B → Fin n → ℝ} {w : Fin p → ℝ}
    (h : listOk L c B X w) : listOk (L ++ E) c B X w := by
  have key : ∀ {i : Nat} {t : Tensor ℝ}, L[i]? = some t → (L ++ E)[i]? = some t := by
    intro i t ht
    obtain ⟨hi, _⟩ := List.getElem?_eq_some_iff.1 ht
    rw [List.getElem?_append_left hi, ht]
  induction c with
  | nil => obtain ⟨t, ht, hb⟩ := h; exact ⟨t, key ht, hb⟩
  | snoc c M ih => obtain ⟨h1, t, ht, hb⟩ := h; exact ⟨ih h1, t, key ht, hb⟩

/-- the last feature map -/
theorem listOk_last {c : MChain sI n sO k p l} {L : List (Tensor ℝ)} {B : Nat} {X : Fin B → Fin n → ℝ} {w : Fin p → ℝ}
    (h : listOk L c B X w) : ∃ t, L[l]? = some t ∧ IsBatch t B sO k fun b => c.S.f w (X b) := by
  cases c with
  | nil => exact h
  | snoc c M => exact h.2

theorem blocks_length {c : MChain sI n sO k p l} {vs : List (PyVal ℝ)} {B : Nat} {Z : Fin B → Matrix (Fin p) (Fin p) ℝ}
    (h : c.blocks vs B Z) : vs.length = c.npar := by
  induction c generalizing vs with
  | nil => simp only [blocks] at h; subst h; rfl
  | @snoc _ _ _ _ _ _ q _ c M ih =>
    simp only [blocks] at h
    split_ifs at h with hq
    · simp [npar, ih h, hq]
    · obtain ⟨vs', v, rfl, h1, h2⟩ := h
      simp [npar, ih h1, hq]

theorem args_append {c : MChain sI n sO k p l} {vs vs' : List (PyVal ℝ)} {B : Nat} {Z : Fin B → Matrix (Fin p) (Fin p) ℝ} {fd : Bool}
    (h : args fd vs c B Z) : args fd (vs ++ vs') c B Z := by
  induction c with
  | nil => trivial
  | snoc c M ih =>
    refine ⟨ih h.1, fun hq => ?_⟩
    obtain ⟨v, hv, ha⟩ := h.2 hq
    obtain ⟨hi, _⟩ := List.getElem?_eq_some_iff.1 hv
    exact ⟨v, by rw [List.getElem?_append_left hi, hv], ha⟩

theorem args_of_blocks {c : MChain sI n sO k p l} (hg : c.AllGood) {vs : List (PyVal ℝ)} {B : Nat} {Z : Fin B → Matrix (Fin p) (Fin p) ℝ}
    (h : c.blocks vs B Z) : args false vs c B Z := by
  induction c generalizing vs with
  | nil => trivial
  | @snoc _ _ _ _ _ _ q _ c M ih =>
    simp only [blocks] at h
    split_ifs at h with hq
    · exact ⟨ih hg.1 h, fun h => absurd hq h⟩
    · obtain ⟨vs', v, rfl, h1, h2⟩ := h
      refine ⟨args_append (ih hg.1 h1), fun _ => ⟨v, ?_, hg.2.arg_of_blocks h2⟩⟩
      rw [← blocks_length h1]
      simp

end MChain

/-! ### algebra of the weight-space mask -/

theorem mask_comp_ul {n l k p q : Nat} (S1 : Sem n l p) (S2 : Sem l k q) (Z : Matrix (Fin (p + q)) (Fin (p + q)) ℝ) (i j : Fin p) :
    (S1.comp S2).mask Z (Fin.castAdd q i) (Fin.castAdd q j) = S1.mask (ulB Z) i j := by
  simp [Sem.mask, Sem.comp, ulB]
theorem mask_comp_lr {n l k p q : Nat} (S1 : Sem n l p) (S2 : Sem l k q) (Z : Matrix (Fin (p + q)) (Fin (p + q)) ℝ) (i j : Fin q) :
    (S1.comp S2).mask Z (Fin.natAdd p i) (Fin.natAdd p j) = S2.mask (lrB Z) i j := by
  simp [Sem.mask, Sem.comp, lrB]
theorem mask_comp_ur {n l k p q : Nat} (S1 : Sem n l p) (S2 : Sem l k q) (Z : Matrix (Fin (p + q)) (Fin (p + q)) ℝ) (i : Fin p) (j : Fin q) :
    (S1.comp S2).mask Z (Fin.castAdd q i) (Fin.natAdd p j) = 0 := by
  simp [Sem.mask, Sem.comp]
theorem mask_comp_ll {n l k p q : Nat} (S1 : Sem n l p) (S2 : Sem l k q) (Z : Matrix (Fin (p + q)) (Fin (p + q)) ℝ) (i : Fin q) (j : Fin p) :
    (S1.comp S2).mask Z (Fin.natAdd p i) (Fin.castAdd q j) = 0 := by
  simp [Sem.mask, Sem.comp]

theorem hcat_mask {n l k p q r : Nat} (S1 : Sem n l p) (S2 : Sem l k q) (Z : Matrix (Fin (p + q)) (Fin (p + q)) ℝ)
    (A : Matrix (Fin r) (Fin p) ℝ) (C : Matrix (Fin r) (Fin q) ℝ) :
    hcat A C * (S1.comp S2).mask Z * (hcat A C)ᵀ = A * S1.mask (ulB Z) * Aᵀ + C * S2.mask (lrB Z) * Cᵀ := by
  ext i j
  rw [mul_apply, Fin.sum_univ_add, Matrix.add_apply, mul_apply, mul_apply]
  congr 1
  · refine Finset.sum_congr rfl fun a _ => ?_
    rw [mul_apply, mul_apply, Fin.sum_univ_add]
    simp [mask_comp_ul, mask_comp_ll]
  · refine Finset.sum_congr rfl fun a _ => ?_
    rw [mul_apply, mul_apply, Fin.sum_univ_add]
    simp [mask_comp_ur, mask_comp_lr]

theorem ulB_diagonal {p q : Nat} (d : Fin (p + q) → ℝ) : ulB (diagonal d) = diagonal (wl d) := by
  funext i j; simp [ulB, diagonal_apply, wl]
theorem lrB_diagonal {p q : Nat} (d : Fin (p + q) → ℝ) : lrB (diagonal d) = diagonal (wr d) := by
  funext i j; simp [lrB, diagonal_apply, wr]

theorem mask_comp_diag {n l k p q : Nat} {S1 : Sem n l p} {S2 : Sem l k q} (h1 : ∀ d, S1.mask (diagonal d) = diagonal d)
    (h2 : ∀ d, S2.mask (diagonal d) = diagonal d) (d : Fin (p + q) → ℝ) : (S1.comp S2).mask (diagonal d) = diagonal d := by
  ext i j
  refine Fin.addCases (fun i => ?_) (fun i => ?_) i <;> refine Fin.addCases (fun j => ?_) (fun j => ?_) j
  · rw [mask_comp_ul, ulB_diagonal, h1]; simp [diagonal_apply, wl]
  · rw [mask_comp_ur]; simp [diagonal_apply, Fin.ext_iff]; intro h; omega
  · rw [mask_comp_ll]; simp [diagonal_apply, Fin.ext_iff]; intro h; omega
  · rw [mask_comp_lr, lrB_diagonal, h2]; simp [diagonal_apply, wr]

theorem MChain.mask_diag {sI sO : List Nat} {n k p l : Nat} {c : MChain sI n sO k p l} (h : c.AllGood) (d : Fin p → ℝ) :
    c.S.mask (diagonal d) = diagonal d := by
  induction c with
  | nil => exact Subsingleton.elim _ _
  | snoc c M ih => exact mask_comp_diag (ih h.1) h.2.mask_diag d

/-! ### concatenated results -/

/-- `torch.cat(ts, dim=1)` is `Z`; no tensors when there are no columns -/
def CatV (ts : List (Tensor ℝ)) (B p : Nat) (Z : Fin B → Fin p → ℝ) : Prop :=
  if p = 0 then ts = [] else ts ≠ [] ∧ Ret (Tensor.cat 1 ts) fun t => IsVec t B p Z
/-- `torch.cat(ts, dim=2)` -/
def CatM (ts : List (Tensor ℝ)) (B r p : Nat) (Z : Fin B → Matrix (Fin r) (Fin p) ℝ) : Prop :=
  if p = 0 then ts = [] else ts ≠ [] ∧ Ret (Tensor.cat 2 ts) fun t => IsMat t B r p Z

theorem cat_snoc {d : Nat} {ts : List (Tensor ℝ)} (h : ts ≠ []) (t : Tensor ℝ) :
    Tensor.cat d (ts ++ [t]) = (do let r ← Tensor.cat d ts; cat2 r t d) := by
  cases ts with
  | nil => exact absurd rfl h
  | cons a ts =>
    simp only [Tensor.cat, List.cons_append]
    split_ifs
    · rw [List.foldlM_append]
      congr 1; funext r
      simp only [List.foldlM_cons, List.foldlM_nil]
      cases cat2 r t d <;> rfl
    · rfl

theorem append_empty_left {q : Nat} (u : Fin 0 → ℝ) (v : Fin q → ℝ) (i : Fin (0 + q)) :
    Fin.append u v i = v (Fin.cast (Nat.zero_add q) i) := by
  rw [Fin.append_left_nil _ _ rfl]
  simp

theorem CatV.snoc {ts : List (Tensor ℝ)} {B p q : Nat} {Z : Fin B → Fin p → ℝ} {Y : Fin B → Fin q → ℝ} {r : Option (Tensor ℝ)}
    (h : CatV ts B p Z) (hr : OptW q (fun t => IsVec t B q Y) r) :
    CatV (ts ++ r.toList) B (p + q) fun b => Fin.append (Z b) (Y b) := by
  unfold OptW at hr
  split_ifs at hr with hq
  · subst hq; subst hr
    have e : (fun b => Fin.append (Z b) (Y b)) = Z := by
      funext b i
      exact Fin.append_left (Z b) (Y b) i
    rw [e]
    simpa using h
  · cases r with
    | none => exact hr.elim
    | some t =>
      simp only [Option.toList_some]
      replace hr : IsVec t B q Y := hr
      have hpq : p + q ≠ 0 := by omega
      unfold CatV at *
      simp only [hpq, if_false]
      refine ⟨by simp, ?_⟩
      split_ifs at h with hp
      · subst hp; subst h
        refine ⟨t, by simp [Tensor.cat, hr.1], ?_, ?_⟩
        · rw [hr.1, Nat.zero_add]
        · intro b i
          show _ = Fin.append (Z b) (Y b) i
          rw [append_empty_left]
          exact hr.2 b (Fin.cast (Nat.zero_add q) i)
      · rw [cat_snoc h.1]
        exact h.2.bind fun u hu => cat2_vec hu hr

theorem CatM.snoc {ts : List (Tensor ℝ)} {B m p q : Nat} {Z : Fin B → Matrix (Fin m) (Fin p) ℝ} {Y : Fin B → Matrix (Fin m) (Fin q) ℝ}
    {r : Option (Tensor ℝ)} (h : CatM ts B m p Z) (hr : OptW q (fun t => IsMat t B m q Y) r) :
    CatM (ts ++ r.toList) B m (p + q) fun b => hcat (Z b) (Y b) := by
  unfold OptW at hr
  split_ifs at hr with hq
  · subst hq; subst hr
    have e : (fun b => hcat (Z b) (Y b)) = Z := by
      funext b i j
      exact hcat_left (Z b) (Y b) i j
    rw [e]
    simpa using h
  · cases r with
    | none => exact hr.elim
    | some t =>
      simp only [Option.toList_some]
      replace hr : IsMat t B m q Y := hr
      have hpq : p + q ≠ 0 := by omega
      unfold CatM at *
      simp only [hpq, if_false]
      refine ⟨by simp, ?_⟩
      split_ifs at h with hp
      · subst hp; subst h
        refine ⟨t, by simp [Tensor.cat, hr.1], ?_, ?_⟩
        · rw [hr.1, Nat.zero_add]
        · intro b i j
          show _ = Fin.append (Z b i) (Y b i) j
          rw [append_empty_left]
          exact hr.2 b i (Fin.cast (Nat.zero_add q) j)
      · rw [cat_snoc h.1]
        exact h.2.bind fun u hu => cat2_cols hu hr

theorem CatV.out {ts : List (Tensor ℝ)} {B p : Nat} {Z : Fin B → Fin p → ℝ} (h : CatV ts B p Z) :
    Ret (Sequential.catOrNone 1 ts) (OptW p fun t => IsVec t B p Z) := by
  unfold CatV at h
  unfold OptW
  split_ifs at h ⊢ with hp
  · subst h; exact Ret.ok rfl
  · have : ts.length > 0 := List.length_pos_iff.2 h.1
    simp only [Sequential.catOrNone, this, if_true]
    exact h.2.some

theorem CatM.out {ts : List (Tensor ℝ)} {B r p : Nat} {Z : Fin B → Matrix (Fin r) (Fin p) ℝ} (h : CatM ts B r p Z) :
    Ret (Sequential.catOrNone 2 ts) (OptW p fun t => IsMat t B r p Z) := by
  unfold CatM at h
  unfold OptW
  split_ifs at h ⊢ with hp
  · subst h; exact Ret.ok rfl
  · have : ts.length > 0 := List.length_pos_iff.2 h.1
    simp only [Sequential.catOrNone, this, if_true]
    exact h.2.some

end NNJ
