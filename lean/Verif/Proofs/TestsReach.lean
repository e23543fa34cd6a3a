import Verif.Proofs.TestsDetect

/-! The draws of `generate_random_matrix_params` reach every block-diagonal metric. -/

namespace NNJ
open Tensor Matrix Tests

mutual
theorem generate_next (r r' : Draws) (B : Nat) : (t : Tree) → (i : Nat) → (generate r B t i).2 = (generate r' B t i).2
  | .layer np, i => by simp only [generate]; split_ifs <;> rfl
  | .container ts, i => by simp only [generate]; exact generateAll_next r r' B ts i
theorem generateAll_next (r r' : Draws) (B : Nat) : (ts : List Tree) → (i : Nat) → (generateAll r B ts i).2 = (generateAll r' B ts i).2
  | [], i => rfl
  | t :: ts, i => by simp only [generateAll]; rw [generate_next r r' B t i]; exact generateAll_next r r' B ts _
end

mutual
theorem generate_le (r : Draws) (B : Nat) : (t : Tree) → (i : Nat) → i ≤ (generate r B t i).2
  | .layer np, i => by simp only [generate]; split_ifs <;> simp
  | .container ts, i => by simp only [generate]; exact generateAll_le r B ts i
theorem generateAll_le (r : Draws) (B : Nat) : (ts : List Tree) → (i : Nat) → i ≤ (generateAll r B ts i).2
  | [], i => le_refl i
  | t :: ts, i => by simp only [generateAll]; exact (generate_le r B t i).trans (generateAll_le r B ts _)
end

/-- `r'` makes the same draws as `r` with the numbers `i ≤ j < i'` -/
def Agree (r r' : Draws) (i i' : Nat) : Prop := r'.Shaped ∧ ∀ j, i ≤ j → j < i' → r' j = r j

theorem reach_leaf {B p : Nat} (hp : 0 < p) (Z : Fin B → Matrix (Fin p) (Fin p) ℝ) (i : Nat) : ∃ r : Draws, r.Shaped ∧
    ∀ r', Agree r r' i (generate r B (.layer p) i).2 → ∃ t, (generate r' B (.layer p) i).1 = .tensor t ∧ IsMat t B p p Z := by
  refine ⟨fun _ s => ofFn s fun idx => match idx with
    | [b, y, z] => if h : b < B ∧ y < p ∧ z < p then Z ⟨b, h.1⟩ ⟨y, h.2.1⟩ ⟨z, h.2.2⟩ else 0
    | _ => 0, fun _ _ => rfl, fun r' h => ?_⟩
  refine ⟨_, by rw [generate, if_neg (by omega)], ?_⟩
  rw [h.2 i le_rfl (by rw [generate, if_neg (by omega)]; simp)]
  refine ⟨rfl, fun b y z => ?_⟩
  rw [get_ofFn _ (by simp)]
  simp

mutual
theorem reach_net (B : Nat) : {s s' : List Nat} → {n k p : Nat} → (N : Net s n s' k p) → N.NestedFull → 0 < p →
    (Z : Fin B → Matrix (Fin p) (Fin p) ℝ) → (∀ b, N.sem.mask (Z b) = Z b) → (i : Nat) →
    ∃ r : Draws, r.Shaped ∧ ∀ r', Agree r r' i (generate r B N.tree i).2 → Gen N (generate r' B N.tree i).1 B Z
  | _, _, _, _, _, .linear _ _ bId a o _ _, _, hp, Z, hZ, i => by
    obtain ⟨r, hr, h⟩ := reach_leaf hp Z i
    refine ⟨r, hr, fun r' ha => ?_⟩
    simp only [Net.tree] at ha ⊢
    obtain ⟨t, e, h⟩ := h r' ha
    rw [e]
    exact ⟨⟨t, rfl, h⟩, hZ, t, rfl, h⟩
  | _, _, _, _, _, .conv _ _ bId g, _, hp, Z, hZ, i => by
    obtain ⟨r, hr, h⟩ := reach_leaf hp Z i
    refine ⟨r, hr, fun r' ha => ?_⟩
    simp only [Net.tree] at ha ⊢
    obtain ⟨t, e, h⟩ := h r' ha
    rw [e]
    exact ⟨⟨t, rfl, h⟩, hZ, t, rfl, h⟩
  | _, _, _, _, _, .act _ _ _ _ _ _, _, hp, _, _, _ => absurd hp (lt_irrefl 0)
  | _, _, _, _, _, .flatten _ _ _ _ _, _, hp, _, _, _ => absurd hp (lt_irrefl 0)
  | _, _, _, _, _, .reshape _ _ _ _ _ _ _ _ _, _, hp, _, _, _ => absurd hp (lt_irrefl 0)
  | _, _, _, _, _, .l2norm _ _ _ _ _ _ _, _, hp, _, _, _ => absurd hp (lt_irrefl 0)
  | _, _, _, _, _, .upsample _ _ _ _ _ _ _ _ _, _, hp, _, _, _ => absurd hp (lt_irrefl 0)
  | _, _, _, _, _, .maxpool _ _, _, hp, _, _, _ => absurd hp (lt_irrefl 0)
  | _, _, _, _, _, .seq _ c, hf, hp, Z, hZ, i => by
    simp only [Net.NestedFull] at hf
    obtain ⟨r, hr, h⟩ := reach_chain B c hf Z (by simpa only [Net.sem] using hZ) i
    refine ⟨r, hr, fun r' ha => ?_⟩
    simp only [Net.tree, generate] at ha ⊢
    obtain ⟨hb, hm, ts, hts, hP⟩ := h r' ha
    refine ⟨?_, hZ, embed_list hts hp hP⟩
    simp only [Net.Blocks]
    exact ⟨_, rfl, hb⟩
  | _, _, _, _, _, .skip _ _ c, hf, hp, Z, hZ, i => by
    simp only [Net.NestedFull] at hf
    obtain ⟨r, hr, h⟩ := reach_chain B c hf Z (by simp only [Net.sem] at hZ; exact hZ) i
    refine ⟨r, hr, fun r' ha => ?_⟩
    simp only [Net.tree, generate] at ha ⊢
    obtain ⟨hb, hm, ts, hts, hP⟩ := h r' ha
    refine ⟨?_, hZ, embed_list hts hp hP⟩
    simp only [Net.Blocks]
    exact ⟨_, rfl, hb⟩
theorem reach_chain (B : Nat) : {s s' : List Nat} → {n k p l : Nat} → (c : Chain s n s' k p l) → c.NestedFull →
    (Z : Fin B → Matrix (Fin p) (Fin p) ℝ) → (∀ b, c.sem.mask (Z b) = Z b) → (i : Nat) →
    ∃ r : Draws, r.Shaped ∧ ∀ r', Agree r r' i (generateAll r B c.trees i).2 → GenAll c ((generateAll r' B c.trees i).1.filter notNone) B Z
  | _, _, _, _, _, _, .nil _ _ _ _, _, Z, hZ, i => by
    refine ⟨fun _ s => zeros s, fun _ _ => rfl, fun r' ha => ⟨?_, hZ, [], rfl, ?_⟩⟩
    · simp only [Chain.Blocks, Chain.trees, generateAll, List.filter_nil]
    · rw [Subsingleton.elim Z fun _ => 0]; exact Placed.nil _
  | _, _, _, _, _, _, @Chain.snoc _ _ _ _ _ _ p q _ c m, hf, Z, hZ, i => by
    simp only [Chain.NestedFull] at hf
    obtain ⟨hc, hm, hq⟩ := hf
    have hZ' : ∀ b, (c.sem.comp m.sem).mask (Z b) = Z b := by simpa only [Chain.sem] using hZ
    have hA : ∀ b, c.sem.mask (ulB (Z b)) = ulB (Z b) := fun b => by
      ext y z
      rw [← mask_comp_ul (S2 := m.sem), hZ' b]; rfl
    have hD : ∀ b, m.sem.mask (lrB (Z b)) = lrB (Z b) := fun b => by
      ext y z
      rw [← mask_comp_lr (S1 := c.sem), hZ' b]; rfl
    have eZ : Z = fun b => blkdiag (ulB (Z b)) (lrB (Z b)) := by
      funext b
      ext y z
      refine Fin.addCases (fun y => ?_) (fun y => ?_) y <;> refine Fin.addCases (fun z => ?_) (fun z => ?_) z
      · simp [blkdiag]; rfl
      · rw [← hZ' b, mask_comp_ur]; simp [blkdiag]
      · rw [← hZ' b, mask_comp_ll]; simp [blkdiag]
      · simp [blkdiag]; rfl
    obtain ⟨rc, hrc, hC⟩ := reach_chain B c hc (fun b => ulB (Z b)) hA i
    rcases Nat.eq_zero_or_pos q with h0 | h0
    · subst h0
      have hl : ¬ m.Container := fun h => lt_irrefl 0 (hq h)
      refine ⟨rc, hrc, fun r' ha => ?_⟩
      rw [Chain.trees, generateAll_append] at ha ⊢
      rw [List.filter_append]
      simp only [generateAll, tree_leaf m hl, generate, if_true] at ha ⊢
      obtain ⟨hb, -, ts, hts, hP⟩ := hC r' ha
      refine ⟨?_, hZ, ts, by simpa [notNone] using hts, ?_⟩
      · simp only [Chain.Blocks, if_true]
        rw [show (List.filter notNone [(PyVal.none : PyVal ℝ)]) = [] from rfl, List.append_nil]
        exact hb
      · exact hP
    · obtain ⟨rm, hrm, hM⟩ := reach_net B m hm h0 (fun b => lrB (Z b)) hD (generateAll rc B c.trees i).2
      let r : Draws := fun j => if j < (generateAll rc B c.trees i).2 then rc j else rm j
      have e1 : ∀ r' : Draws, (generateAll r' B c.trees i).2 = (generateAll rc B c.trees i).2 := fun r' => generateAll_next _ _ _ _ _
      have e2 : ∀ r' : Draws, (generate r' B m.tree (generateAll rc B c.trees i).2).2 = (generate rm B m.tree (generateAll rc B c.trees i).2).2 :=
        fun r' => generate_next _ _ _ _ _
      refine ⟨r, fun j s => ?_, fun r' ha => ?_⟩
      · show (ite _ (rc j) (rm j) s).shape = s
        split_ifs
        · exact hrc j s
        · exact hrm j s
      · rw [Chain.trees, generateAll_append] at ha ⊢
        rw [List.filter_append]
        simp only [generateAll, e1, e2] at ha ⊢
        have hle := generate_le rm B m.tree (generateAll rc B c.trees i).2
        have hle' := generateAll_le rc B c.trees i
        obtain ⟨hb, -, ts, hts, hP⟩ := hC r' ⟨ha.1, fun j h1 h2 => by rw [ha.2 j h1 (h2.trans_le hle)]; exact if_pos h2⟩
        obtain ⟨hmb, -, t, ht, htD⟩ := hM r' ⟨ha.1, fun j h1 h2 => by rw [ha.2 j (hle'.trans h1) h2]; exact if_neg (by omega)⟩
        refine ⟨?_, hZ, ts ++ [t], ?_, ?_⟩
        · rw [filter_singleton (gen_ne_none m h0 _)]
          simp only [Chain.Blocks]
          rw [if_neg (by omega)]
          exact ⟨_, _, rfl, hb, hmb⟩
        · rw [filter_singleton (gen_ne_none m h0 _)]
          refine embedAll_append hts ?_
          simp only [embedAll, ht]
          rfl
        · rw [eZ]; exact hP.snoc htD
end

end NNJ
