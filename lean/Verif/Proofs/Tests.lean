import Verif.Spec.Tests
import Verif.Proofs.Mask
import Verif.Proofs.Calls
import Verif.Proofs.NoneNet
import Verif.Proofs.Weights
import Verif.Proofs.SkipGood

/-! The helper functions of the tests: closeness, block-diagonal matrices from nested lists. -/

namespace NNJ
namespace Tests
open Tensor Matrix

theorem isCloseAll_of_teq {a b : Tensor ℝ} (h : TEq a b) : isCloseAll a b = .ok true := by
  simp only [isCloseAll, zipWithB, h.1, if_true]
  show Except.ok _ = Except.ok _
  congr 1
  refine decide_eq_true fun i hi => ?_
  dsimp only
  rw [if_pos]
  rw [h.2 i (by rw [h.1]; exact hi), sub_self, abs_zero]
  positivity

theorem run_check {a b : Tensor ℝ} {st : Store ℝ} {Q : Store ℝ → Prop} (h : TEq a b) (hQ : Q st) : Run (check a b) st fun _ s' => Q s' := by
  refine Run.bindAssert (by simp [h.1]) ?_
  rw [isCloseAll_of_teq h]
  exact ⟨(), st, rfl, hQ⟩

/-! ### block-diagonal matrices -/

/-- the block-diagonal matrix with two blocks -/
def blkdiag {p q : Nat} (A : Matrix (Fin p) (Fin p) ℝ) (D : Matrix (Fin q) (Fin q) ℝ) : Matrix (Fin (p + q)) (Fin (p + q)) ℝ := fun i j =>
  if h : i.1 < p ∧ j.1 < p then A ⟨i, h.1⟩ ⟨j, h.2⟩
  else if h : p ≤ i.1 ∧ p ≤ j.1 then D ⟨i - p, by omega⟩ ⟨j - p, by omega⟩ else 0

theorem blockUL_blkdiag {p q : Nat} (A : Matrix (Fin p) (Fin p) ℝ) (D : Matrix (Fin q) (Fin q) ℝ) : blockUL (blkdiag A D) = A := by
  ext i j; simp [blockUL, blkdiag]
theorem blockLR_blkdiag {p q : Nat} (A : Matrix (Fin p) (Fin p) ℝ) (D : Matrix (Fin q) (Fin q) ℝ) : blockLR (blkdiag A D) = D := by
  ext i j; simp [blockLR, blkdiag]

theorem mask_blkdiag {n l k p q : Nat} {S1 : Sem n l p} {S2 : Sem l k q} {A : Matrix (Fin p) (Fin p) ℝ} {D : Matrix (Fin q) (Fin q) ℝ}
    (h1 : S1.mask A = A) (h2 : S2.mask D = D) : (S1.comp S2).mask (blkdiag A D) = blkdiag A D := by
  ext i j
  refine Fin.addCases (fun i => ?_) (fun i => ?_) i <;> refine Fin.addCases (fun j => ?_) (fun j => ?_) j
  · rw [mask_comp_ul]
    rw [show ulB (blkdiag A D) = A from blockUL_blkdiag A D, h1]; simp [blkdiag]
  · rw [mask_comp_ur]; simp [blkdiag]
  · rw [mask_comp_ll]; simp [blkdiag]
  · rw [mask_comp_lr]
    rw [show lrB (blkdiag A D) = D from blockLR_blkdiag A D, h2]; simp [blkdiag]

theorem generateAll_append (randn : Draws) (b : Nat) (ts us : List Tree) (i : Nat) :
    generateAll randn b (ts ++ us) i = ((generateAll randn b ts i).1 ++ (generateAll randn b us (generateAll randn b ts i).2).1,
      (generateAll randn b us (generateAll randn b ts i).2).2) := by
  induction ts generalizing i with
  | nil => simp [generateAll]
  | cons t ts ih => simp [generateAll, ih]

theorem embedAll_append {vs ws : List (PyVal ℝ)} {a b : List (Tensor ℝ)} (h1 : embedAll vs = .ok a) (h2 : embedAll ws = .ok b) :
    embedAll (vs ++ ws) = .ok (a ++ b) := by
  induction vs generalizing a with
  | nil => obtain rfl : [] = a := by simpa [embedAll] using h1
           exact h2
  | cons v vs ih =>
    simp only [embedAll, List.cons_append] at h1 ⊢
    cases hv : embed v with
    | error e => rw [hv] at h1; cases h1
    | ok t =>
      rw [hv] at h1
      cases hvs : embedAll vs with
      | error e => rw [hvs] at h1; cases h1
      | ok ts =>
        rw [hvs] at h1
        obtain rfl : t :: ts = a := by injection h1
        rw [ih hvs]
        rfl

theorem placeBlocks_append (xs ys : List (Tensor ℝ)) (st : Tensor ℝ × Nat × Nat) :
    placeBlocks (xs ++ ys) st = (placeBlocks xs st >>= placeBlocks ys) := by
  induction xs generalizing st with
  | nil => obtain ⟨t, i, j⟩ := st; rfl
  | cons x xs ih =>
    obtain ⟨t, i, j⟩ := st
    simp only [placeBlocks, List.cons_append]
    cases setBlock t x i j with
    | error e => rfl
    | ok t =>
      cases x.dim 1 with
      | error e => rfl
      | ok r =>
        cases x.dim 2 with
        | error e => rfl
        | ok c => exact ih _

theorem sumDims_append {d a b : Nat} {xs ys : List (Tensor ℝ)} (h1 : sumDims d xs = .ok a) (h2 : sumDims d ys = .ok b) : sumDims d (xs ++ ys) = .ok (a + b) := by
  induction xs generalizing a with
  | nil => obtain rfl : 0 = a := by simpa [sumDims] using h1
           simpa using h2
  | cons x xs ih =>
    simp only [sumDims, List.cons_append] at h1 ⊢
    cases hx : x.dim d with
    | error e => rw [hx] at h1; cases h1
    | ok r =>
      rw [hx] at h1
      cases hs : sumDims d xs with
      | error e => rw [hs] at h1; cases h1
      | ok rs =>
        rw [hs] at h1
        obtain rfl : r + rs = a := by injection h1
        rw [ih hs, Nat.add_assoc]
        rfl

/-- the blocks give the matrix `Z` -/
structure Placed (subs : List (Tensor ℝ)) (B p : Nat) (Z : Fin B → Matrix (Fin p) (Fin p) ℝ) : Prop where
  batch : ∀ t ∈ subs, t.dim 0 = .ok B
  rows : sumDims 1 subs = .ok p
  cols : sumDims 2 subs = .ok p
  place : ∀ R, p ≤ R → ∃ T, placeBlocks subs (zeros [B, R, R], 0, 0) = .ok (T, p, p) ∧ T.shape = [B, R, R] ∧
    ∀ (b : Fin B) (y z : Nat), y < R → z < R → T.get [b, y, z] = if h : y < p ∧ z < p then Z b ⟨y, h.1⟩ ⟨z, h.2⟩ else 0

theorem get_zeros {s idx : List Nat} : (zeros s : Tensor ℝ).get idx = 0 := rfl

theorem Placed.nil {B : Nat} (Z : Fin B → Matrix (Fin 0) (Fin 0) ℝ) : Placed [] B 0 Z :=
  ⟨by simp, rfl, rfl, fun R _ => ⟨_, rfl, rfl, fun b y z _ _ => by rw [get_zeros]; simp⟩⟩

theorem setBlock_mat {T t : Tensor ℝ} {B R p q : Nat} {D : Fin B → Matrix (Fin q) (Fin q) ℝ} (hT : T.shape = [B, R, R]) (ht : IsMat t B q q D)
    (h : p + q ≤ R) : ∃ T', setBlock T t p p = .ok T' ∧ T'.shape = [B, R, R] ∧ ∀ (b : Fin B) (y z : Nat), y < R → z < R →
      T'.get [b, y, z] = if h : (p ≤ y ∧ y < p + q) ∧ p ≤ z ∧ z < p + q then D b ⟨y - p, by omega⟩ ⟨z - p, by omega⟩ else T.get [b, y, z] := by
  refine ⟨_, by simp only [setBlock, hT, ht.1]; rw [if_pos ⟨trivial, h, h⟩], rfl, fun b y z hy hz => ?_⟩
  rw [get_ofFn _ (by simp [hy, hz])]
  dsimp only
  by_cases hc : (p ≤ y ∧ y < p + q) ∧ p ≤ z ∧ z < p + q
  · rw [if_pos ⟨hc.1.1, hc.1.2, hc.2.1, hc.2.2⟩, dif_pos hc]
    exact ht.2 b ⟨y - p, by omega⟩ ⟨z - p, by omega⟩
  · rw [if_neg (fun h => hc ⟨⟨h.1, h.2.1⟩, h.2.2⟩), dif_neg hc]

theorem Placed.snoc {subs : List (Tensor ℝ)} {t : Tensor ℝ} {B p q : Nat} {A : Fin B → Matrix (Fin p) (Fin p) ℝ} {D : Fin B → Matrix (Fin q) (Fin q) ℝ}
    (h : Placed subs B p A) (ht : IsMat t B q q D) : Placed (subs ++ [t]) B (p + q) fun b => blkdiag (A b) (D b) := by
  have d0 : t.dim 0 = .ok B := by simp [dim, ht.1]
  have d1 : t.dim 1 = .ok q := by simp [dim, ht.1]
  have d2 : t.dim 2 = .ok q := by simp [dim, ht.1]
  refine ⟨fun u hu => ?_, sumDims_append h.rows (by simp only [sumDims, d1]; rfl), sumDims_append h.cols (by simp only [sumDims, d2]; rfl), fun R hR => ?_⟩
  · rcases List.mem_append.1 hu with hu | hu
    · exact h.batch u hu
    · rw [List.mem_singleton.1 hu]; exact d0
  · obtain ⟨T, hT, hTs, hTg⟩ := h.place R (by omega)
    obtain ⟨T', hT', hTs', hTg'⟩ := setBlock_mat (p := p) hTs ht (by omega)
    refine ⟨T', ?_, hTs', fun b y z hy hz => ?_⟩
    · rw [placeBlocks_append, hT]
      show placeBlocks [t] (T, p, p) = _
      simp only [placeBlocks, hT', d1, d2]
      rfl
    · rw [hTg' b y z hy hz, hTg b y z hy hz]
      simp only [blkdiag]
      split_ifs <;> first | rfl | omega

/-! ### generated matrices -/

/-- what the test generates for a module -/
structure Gen {s s' : List Nat} {n k p : Nat} (N : Net s n s' k p) (v : PyVal ℝ) (B : Nat) (Z : Fin B → Matrix (Fin p) (Fin p) ℝ) : Prop where
  blocks : N.Blocks v B Z
  mask : ∀ b, N.sem.mask (Z b) = Z b
  embed : ∃ t, Tests.embed v = .ok t ∧ IsMat t B p p Z

/-- what it generates for a list of modules -/
structure GenAll {s s' : List Nat} {n k p l : Nat} (c : Chain s n s' k p l) (vs : List (PyVal ℝ)) (B : Nat) (Z : Fin B → Matrix (Fin p) (Fin p) ℝ) : Prop where
  blocks : c.Blocks vs B Z
  mask : ∀ b, c.sem.mask (Z b) = Z b
  embed : ∃ ts, embedAll vs = .ok ts ∧ Placed ts B p Z

theorem tree_leaf {s s' : List Nat} {n k p : Nat} (N : Net s n s' k p) (h : ¬ N.Container) : N.tree = .layer p := by
  cases N <;> first | rfl | exact absurd trivial h

theorem embed_list {vs : List (PyVal ℝ)} {ts : List (Tensor ℝ)} {B p : Nat} {Z : Fin B → Matrix (Fin p) (Fin p) ℝ} (h : embedAll vs = .ok ts)
    (hp : 0 < p) (hP : Placed ts B p Z) : ∃ t, embed (.list vs) = .ok t ∧ IsMat t B p p Z := by
  cases ts with
  | nil => have := hP.rows; simp [sumDims] at this; omega
  | cons t0 ts =>
    obtain ⟨T, hT, hTs, hTg⟩ := hP.place p le_rfl
    refine ⟨T, ?_, hTs, fun b i j => ?_⟩
    · simp only [embed, h, Res.bind_ok, hP.batch t0 (by simp), hP.rows, hP.cols, hT]
      rfl
    · rw [hTg b i j i.2 j.2, dif_pos ⟨i.2, j.2⟩]

theorem gen_ne_none {randn : Draws} {B : Nat} {s s' : List Nat} {n k p : Nat} (N : Net s n s' k p) (hp : 0 < p) (i : Nat) :
    notNone (generate randn B N.tree i).1 = true := by
  by_cases h : N.Container
  · cases N <;> first | exact h.elim | rfl
  · rw [tree_leaf N h, generate, if_neg (by omega)]; rfl

theorem filter_singleton {v : PyVal ℝ} (h : notNone v = true) : [v].filter notNone = [v] := by simp [h]

theorem gen_leaf {randn : Draws} (hr : randn.Shaped) {B p : Nat} (hp : 0 < p) (i : Nat) : ∃ t Z, (generate randn B (.layer p) i).1 = .tensor t ∧ IsMat t B p p Z := by
  refine ⟨randn i [B, p, p], fun b y z => (randn i [B, p, p]).get [b, y, z], ?_, hr _ _, fun _ _ _ => rfl⟩
  rw [generate, if_neg (by omega)]

mutual
theorem gen_net {randn : Draws} (hr : randn.Shaped) (B : Nat) : {s s' : List Nat} → {n k p : Nat} → (N : Net s n s' k p) → N.NestedFull → 0 < p →
    (i : Nat) → ∃ Z, Gen N (generate randn B N.tree i).1 B Z
  | _, _, _, _, _, .linear _ _ bId a o _ _, _, hp, i => by
    obtain ⟨t, Z, e, h⟩ := gen_leaf hr hp i
    simp only [Net.tree]
    rw [e]
    exact ⟨Z, ⟨t, rfl, h⟩, fun b => mask_of_same (fun _ _ => rfl) _, t, rfl, h⟩
  | _, _, _, _, _, .conv _ _ bId g, _, hp, i => by
    obtain ⟨t, Z, e, h⟩ := gen_leaf hr hp i
    simp only [Net.tree]
    rw [e]
    exact ⟨Z, ⟨t, rfl, h⟩, fun b => mask_of_same (fun _ _ => rfl) _, t, rfl, h⟩
  | _, _, _, _, _, .act _ _ _ _ _ _, _, hp, _ => absurd hp (lt_irrefl 0)
  | _, _, _, _, _, .flatten _ _ _ _ _, _, hp, _ => absurd hp (lt_irrefl 0)
  | _, _, _, _, _, .reshape _ _ _ _ _ _ _ _ _, _, hp, _ => absurd hp (lt_irrefl 0)
  | _, _, _, _, _, .l2norm _ _ _ _ _ _ _, _, hp, _ => absurd hp (lt_irrefl 0)
  | _, _, _, _, _, .upsample _ _ _ _ _ _ _ _ _, _, hp, _ => absurd hp (lt_irrefl 0)
  | _, _, _, _, _, .maxpool _ _, _, hp, _ => absurd hp (lt_irrefl 0)
  | _, _, _, _, _, .seq _ c, hf, hp, i => by
    simp only [Net.NestedFull] at hf
    obtain ⟨Z, hb, hm, ts, hts, hP⟩ := gen_chain hr B c hf i
    refine ⟨Z, ?_, by simpa only [Net.sem] using hm, ?_⟩
    · simp only [Net.Blocks, Net.tree, generate]
      exact ⟨_, rfl, hb⟩
    · simp only [Net.tree, generate]
      exact embed_list hts hp hP
  | _, _, _, _, _, .skip _ _ c, hf, hp, i => by
    simp only [Net.NestedFull] at hf
    obtain ⟨Z, hb, hm, ts, hts, hP⟩ := gen_chain hr B c hf i
    refine ⟨Z, ?_, fun b => ?_, ?_⟩
    · simp only [Net.Blocks, Net.tree, generate]
      exact ⟨_, rfl, hb⟩
    · simp only [Net.sem]
      exact hm b
    · simp only [Net.tree, generate]
      exact embed_list hts hp hP
theorem gen_chain {randn : Draws} (hr : randn.Shaped) (B : Nat) : {s s' : List Nat} → {n k p l : Nat} → (c : Chain s n s' k p l) → c.NestedFull →
    (i : Nat) → ∃ Z, GenAll c ((generateAll randn B c.trees i).1.filter notNone) B Z
  | _, _, _, _, _, _, .nil _ _ _ _, _, i => by
    refine ⟨fun _ => 0, ?_, fun b => ?_, [], rfl, Placed.nil _⟩
    · simp only [Chain.Blocks, Chain.trees, generateAll, List.filter_nil]
    · ext i; exact i.elim0
  | _, _, _, _, _, _, @Chain.snoc _ _ _ _ _ _ p q _ c m, hf, i => by
    simp only [Chain.NestedFull] at hf
    obtain ⟨hc, hm, hq⟩ := hf
    obtain ⟨A, hb, hA, ts, hts, hP⟩ := gen_chain hr B c hc i
    rw [Chain.trees, generateAll_append, List.filter_append]
    simp only [generateAll]
    rcases Nat.eq_zero_or_pos q with h0 | h0
    · subst h0
      have hl : ¬ m.Container := fun h => lt_irrefl 0 (hq h)
      have eA : ∀ b, blkdiag (A b) (0 : Matrix (Fin 0) (Fin 0) ℝ) = A b := fun b => by
        ext i j
        exact dif_pos ⟨i.2, j.2⟩
      refine ⟨fun b => blkdiag (A b) 0, ?_, fun b => ?_, ts, ?_, ?_⟩
      · rw [tree_leaf m hl]
        simp only [generate, if_true, Chain.Blocks, blockUL_blkdiag]
        simpa [notNone] using hb
      · simp only [Chain.sem]
        exact mask_blkdiag (hA b) (by ext i; exact i.elim0)
      · rw [tree_leaf m hl]
        simp only [generate, if_true]
        simpa [notNone] using hts
      · rw [show (fun b => blkdiag (A b) (0 : Matrix (Fin 0) (Fin 0) ℝ)) = A from funext eA]; exact hP
    · obtain ⟨D, hmb, hD, t, ht, htD⟩ := gen_net hr B m hm h0 (generateAll randn B c.trees i).2
      refine ⟨fun b => blkdiag (A b) (D b), ?_, fun b => ?_, ts ++ [t], ?_, hP.snoc htD⟩
      · rw [filter_singleton (gen_ne_none m h0 _)]
        simp only [Chain.Blocks, blockUL_blkdiag, blockLR_blkdiag]
        rw [if_neg (by omega)]
        exact ⟨_, _, rfl, hb, hmb⟩
      · simp only [Chain.sem]
        exact mask_blkdiag (hA b) (hD b)
      · rw [filter_singleton (gen_ne_none m h0 _)]
        refine embedAll_append hts ?_
        simp only [embedAll, ht]
        rfl
end

/-! ### comparing nested lists with a matrix -/

theorem blockShapes_append {vs ws : List (PyVal ℝ)} {a b : Nat × Nat} (h1 : blockShapes vs = .ok a) (h2 : blockShapes ws = .ok b) :
    blockShapes (vs ++ ws) = .ok (a.1 + b.1, a.2 + b.2) := by
  induction vs generalizing a with
  | nil =>
    obtain rfl : (0, 0) = a := by simpa [blockShapes] using h1
    simpa using h2
  | cons v vs ih =>
    simp only [blockShapes, List.cons_append] at h1 ⊢
    cases hv : blockShape v with
    | error e => rw [hv] at h1; cases h1
    | ok t =>
      rw [hv] at h1
      cases hvs : blockShapes vs with
      | error e => rw [hvs] at h1; cases h1
      | ok ts =>
        rw [hvs] at h1
        obtain rfl : (t.1 + ts.1, t.2 + ts.2) = a := by injection h1
        rw [ih hvs]
        simp [Nat.add_assoc]

theorem closeAll_append {vs ws : List (PyVal ℝ)} {m : Tensor ℝ} {acc acc' : Truth} {i j : Nat} {a : Nat × Nat} (h1 : blockShapes vs = .ok a)
    (h2 : closeAll vs m acc i j = .ok acc') : closeAll (vs ++ ws) m acc i j = closeAll ws m acc' (i + a.1) (j + a.2) := by
  induction vs generalizing acc i j a with
  | nil =>
    obtain rfl : (0, 0) = a := by simpa [blockShapes] using h1
    obtain rfl : acc = acc' := by simpa [closeAll] using h2
    rfl
  | cons v vs ih =>
    simp only [blockShapes] at h1
    simp only [closeAll, List.cons_append] at h2 ⊢
    cases hv : blockShape v with
    | error e => rw [hv] at h1; cases h1
    | ok t =>
      rw [hv] at h1 h2
      cases hvs : blockShapes vs with
      | error e => rw [hvs] at h1; cases h1
      | ok ts =>
        rw [hvs] at h1
        obtain rfl : (t.1 + ts.1, t.2 + ts.2) = a := by injection h1
        simp only [Res.bind_ok] at h2 ⊢
        cases hm1 : m.slice 1 i (i + t.1) with
        | error e => rw [hm1] at h2; cases h2
        | ok m1 =>
          rw [hm1] at h2
          simp only [Res.bind_ok] at h2 ⊢
          cases hm2 : m1.slice 2 j (j + t.2) with
          | error e => rw [hm2] at h2; cases h2
          | ok m2 =>
            rw [hm2] at h2
            simp only [Res.bind_ok] at h2 ⊢
            by_cases hh : acc.holds = true
            · rw [if_pos hh] at h2 ⊢
              cases hacc : closeBlocks v m2 with
              | error e => rw [hacc] at h2; cases h2
              | ok acc1 =>
                rw [hacc] at h2
                simp only [Res.bind_ok] at h2 ⊢
                rw [ih hvs h2, Nat.add_assoc, Nat.add_assoc]
            · rw [if_neg hh] at h2 ⊢
              simp only [Res.pure_eq, Res.bind_ok] at h2 ⊢
              rw [ih hvs h2, Nat.add_assoc, Nat.add_assoc]

theorem close_leaf {t m : Tensor ℝ} {B p : Nat} {Z : Fin B → Matrix (Fin p) (Fin p) ℝ} (ht : IsMat t B p p Z) :
    blockShape (.tensor t) = .ok (p, p) ∧ (IsMat m B p p Z → closeBlocks (.tensor t) m = .ok (.tensor true)) := by
  constructor
  · simp only [blockShape, dim, ht.1]; rfl
  · intro hm
    simp only [closeBlocks, isCloseAll_of_teq (teq_mat ht hm)]
    rfl

mutual
theorem close_net {B : Nat} : {s s' : List Nat} → {n k p : Nat} → (N : Net s n s' k p) → {v : PyVal ℝ} → {m : Tensor ℝ} →
    {Z : Fin B → Matrix (Fin p) (Fin p) ℝ} → 0 < p → N.Blocks v B Z → IsMat m B p p Z →
      blockShape v = .ok (p, p) ∧ closeBlocks v m = .ok (.tensor true)
  | _, _, _, _, _, .linear _ _ bId a o _ _, v, m, Z, _, hv, hm => by
    simp only [Net.Blocks] at hv
    obtain ⟨t, rfl, ht⟩ := hv
    exact ⟨(close_leaf (m := m) ht).1, (close_leaf ht).2 hm⟩
  | _, _, _, _, _, .conv _ _ bId g, v, m, Z, _, hv, hm => by
    simp only [Net.Blocks] at hv
    obtain ⟨t, rfl, ht⟩ := hv
    exact ⟨(close_leaf (m := m) ht).1, (close_leaf ht).2 hm⟩
  | _, _, _, _, _, .act _ _ _ _ _ _, _, _, _, hp, _, _ => absurd hp (lt_irrefl 0)
  | _, _, _, _, _, .flatten _ _ _ _ _, _, _, _, hp, _, _ => absurd hp (lt_irrefl 0)
  | _, _, _, _, _, .reshape _ _ _ _ _ _ _ _ _, _, _, _, hp, _, _ => absurd hp (lt_irrefl 0)
  | _, _, _, _, _, .l2norm _ _ _ _ _ _ _, _, _, _, hp, _, _ => absurd hp (lt_irrefl 0)
  | _, _, _, _, _, .upsample _ _ _ _ _ _ _ _ _, _, _, _, hp, _, _ => absurd hp (lt_irrefl 0)
  | _, _, _, _, _, .maxpool _ _, _, _, _, hp, _, _ => absurd hp (lt_irrefl 0)
  | _, _, _, _, _, .seq _ c, v, m, Z, hp, hv, hm => by
    simp only [Net.Blocks] at hv
    obtain ⟨vs, rfl, hv⟩ := hv
    obtain ⟨h1, T, h2, h3⟩ := close_chain c (R := _) hv hm le_rfl (fun _ _ _ => rfl)
    simp only [blockShape, closeBlocks]
    rw [if_neg (by omega)] at h3
    exact ⟨h1, by rw [h2, h3]⟩
  | _, _, _, _, _, .skip _ _ c, v, m, Z, hp, hv, hm => by
    simp only [Net.Blocks] at hv
    obtain ⟨vs, rfl, hv⟩ := hv
    obtain ⟨h1, T, h2, h3⟩ := close_chain c (R := _) hv hm le_rfl (fun _ _ _ => rfl)
    simp only [blockShape, closeBlocks]
    rw [if_neg (by omega)] at h3
    exact ⟨h1, by rw [h2, h3]⟩
theorem close_chain {B : Nat} : {s s' : List Nat} → {n k p l : Nat} → (c : Chain s n s' k p l) → {vs : List (PyVal ℝ)} → {m : Tensor ℝ} → {R : Nat} →
    {Z : Fin B → Matrix (Fin p) (Fin p) ℝ} → {W : Fin B → Matrix (Fin R) (Fin R) ℝ} → c.Blocks vs B Z → IsMat m B R R W → (h : p ≤ R) →
    (∀ b i j, W b (Fin.castLE h i) (Fin.castLE h j) = Z b i j) →
      blockShapes vs = .ok (p, p) ∧ ∃ T, closeAll vs m .pyTrue 0 0 = .ok T ∧ (if p = 0 then T = .pyTrue else T = .tensor true)
  | _, _, _, _, _, _, .nil _ _ _ _, vs, m, R, Z, W, hv, hm, h, hW => by
    simp only [Chain.Blocks] at hv
    subst hv
    exact ⟨rfl, _, rfl, by simp⟩
  | _, _, _, _, _, _, @Chain.snoc _ _ _ _ _ _ p q _ c mm, vs, m, R, Z, W, hv, hm, h, hW => by
    simp only [Chain.Blocks] at hv
    split at hv
    · next h0 =>
      subst h0
      exact close_chain c hv hm (by omega) fun b i j => hW b i j
    · next h0 =>
      obtain ⟨vs', v, rfl, hc, hmv⟩ := hv
      obtain ⟨h1, T, h2, h3⟩ := close_chain c hc hm (by omega) fun b i j => hW b (Fin.castAdd q i) (Fin.castAdd q j)
      obtain ⟨m1, hm1, hM1⟩ := slice_rows (lo := p) (q := q) hm h
      obtain ⟨m2, hm2, hM2⟩ := slice_cols (lo := p) (q := q) hM1 h
      have hM2' : IsMat m2 B q q fun b => blockLR (Z b) := hM2.congr fun b i j => hW b (Fin.natAdd p i) (Fin.natAdd p j)
      obtain ⟨h4, h5⟩ := close_net mm (Nat.pos_of_ne_zero h0) hmv hM2'
      have hT : T.holds = true := by
        split at h3 <;> subst h3 <;> rfl
      refine ⟨blockShapes_append h1 (b := (q, q)) (by simp only [blockShapes, h4]; rfl), .tensor true, ?_, by rw [if_neg (by omega)]⟩
      rw [closeAll_append h1 h2]
      simp only [closeAll, h4, Nat.zero_add, Res.bind_ok, hm1, hm2, hT, if_true, h5]
end

end Tests
end NNJ
