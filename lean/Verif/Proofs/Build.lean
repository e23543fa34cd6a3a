import Verif.Proofs.NetGood
import Verif.Spec.Build

/-! The constructors leave a properly wired network. -/

namespace NNJ
open Tensor

/-- the objects of a chain that are its direct children -/
noncomputable def Chain.tops : {s s' : List Nat} → {n k p l : Nat} → Chain s n s' k p l → List Nat
  | _, _, _, _, _, _, .nil _ _ _ _ => []
  | _, _, _, _, _, _, .snoc c m => c.tops ++ [m.mod.id]

theorem Net.id_mem {s s' : List Nat} {n k p : Nat} (N : Net s n s' k p) : N.mod.id ∈ N.ids := by
  cases N <;> simp [Net.mod, Net.ids, Linear.mod, Activation.toMod, Resh.flatten, Resh.reshape, L2Norm.mod, Conv2d.mod, Upsample.mod, MaxPool2d.mod, Sequential.mod,
    SkipConnection.mod, PureLayer.toMod]

theorem Chain.tops_sub : {s s' : List Nat} → {n k p l : Nat} → (c : Chain s n s' k p l) → ∀ i ∈ c.tops, i ∈ c.ids
  | _, _, _, _, _, _, .nil _ _ _ _ => by simp [Chain.tops]
  | _, _, _, _, _, _, .snoc c m => by
    intro i hi
    simp only [Chain.tops, List.mem_append, List.mem_singleton] at hi
    simp only [Chain.ids, List.mem_append]
    rcases hi with hi | rfl
    · exact .inl (c.tops_sub i hi)
    · exact .inr m.id_mem

mutual
/-- wiredness depends only on the objects inside -/
theorem Net.wired_congr : {s s' : List Nat} → {n k p : Nat} → (N : Net s n s' k p) → {st st' : Store ℝ} → N.ids.Nodup →
    st'.param = st.param → (∀ i ∈ N.ids, (st'.fmaps i).isSome = (st.fmaps i).isSome) →
    (∀ i ∈ N.ids, i ≠ N.mod.id → st'.hooks i = st.hooks i) → N.Wired st → N.Wired st'
  | _, _, _, _, _, .linear _ _ _ _ _ _ _, _, _, _, hp, _, _ => by simp only [Net.Wired, hp]; exact fun h => h
  | _, _, _, _, _, .act _ _ _ _ _ _, _, _, _, _, _, _ => by simp [Net.Wired]
  | _, _, _, _, _, .flatten _ _ _ _ _, _, _, _, _, _, _ => by simp [Net.Wired]
  | _, _, _, _, _, .reshape _ _ _ _ _ _ _ _ _, _, _, _, _, _, _ => by simp [Net.Wired]
  | _, _, _, _, _, .l2norm _ _ _ _ _ _ _, _, _, _, _, _, _ => by simp [Net.Wired]
  | _, _, _, _, _, .conv _ _ _ _, _, _, _, hp, _, _ => by simp only [Net.Wired, hp]; exact fun h => h
  | _, _, _, _, _, .upsample _ _ _ _ _ _ _ _ _, _, _, _, _, _, _ => by simp [Net.Wired]
  | _, _, _, _, _, .maxpool _ _, _, _, _, _, _, _ => by simp [Net.Wired]
  | _, _, _, _, _, .seq id c, st, st', hnd, hp, hfm, hh => by
    simp only [Net.ids, List.nodup_cons] at hnd
    simp only [Net.Wired]
    intro ⟨h1, h2⟩
    refine ⟨by rw [hfm id (by simp [Net.ids])]; exact h1, c.wired_congr id hnd.2 hp (fun i hi => hfm i (by simp [Net.ids, hi])) ?_ h2⟩
    exact fun i hi => hh i (by simp [Net.ids, hi]) (by simp only [Net.mod, Sequential.mod]; rintro rfl; exact hnd.1 hi)
  | _, _, _, _, _, .skip id fid ch, st, st', hnd, hp, hfm, hh => by
    simp only [Net.ids, List.nodup_cons, List.mem_cons, not_or] at hnd
    simp only [Net.Wired]
    intro ⟨h1, h2, h3⟩
    refine ⟨by rw [hfm fid (by simp [Net.ids])]; exact h1, ?_, ch.wired_congr fid hnd.2.2 hp (fun i hi => hfm i (by simp [Net.ids, hi])) ?_ h3⟩
    · rw [hh fid (by simp [Net.ids]) (by simp only [Net.mod, SkipConnection.mod]; exact fun h => hnd.1.1 h.symm)]; exact h2
    · exact fun i hi => hh i (by simp [Net.ids, hi]) (by simp only [Net.mod, SkipConnection.mod]; rintro rfl; exact hnd.1.2 hi)
theorem Chain.wired_congr : {s s' : List Nat} → {n k p l : Nat} → (c : Chain s n s' k p l) → (q : Nat) → {st st' : Store ℝ} → c.ids.Nodup →
    st'.param = st.param → (∀ i ∈ c.ids, (st'.fmaps i).isSome = (st.fmaps i).isSome) →
    (∀ i ∈ c.ids, st'.hooks i = st.hooks i) → c.Wired q st → c.Wired q st'
  | _, _, _, _, _, _, .nil _ _ _ _, _, _, _, _, _, _, _ => by simp [Chain.Wired]
  | _, _, _, _, _, _, .snoc c m, q, st, st', hnd, hp, hfm, hh => by
    simp only [Chain.ids, List.nodup_append] at hnd
    simp only [Chain.Wired]
    intro ⟨h1, h2, h3⟩
    refine ⟨c.wired_congr q hnd.1 hp (fun i hi => hfm i (by simp [Chain.ids, hi])) (fun i hi => hh i (by simp [Chain.ids, hi])) h1,
      m.wired_congr hnd.2.1 hp (fun i hi => hfm i (by simp [Chain.ids, hi])) (fun i hi _ => hh i (by simp [Chain.ids, hi])) h2, ?_⟩
    rw [hh m.mod.id (by simp [Chain.ids, m.id_mem])]; exact h3
end

/-- every child is wired and has no hook yet -/
def Chain.Pre : {s s' : List Nat} → {n k p l : Nat} → Chain s n s' k p l → Store ℝ → Prop
  | _, _, _, _, _, _, .nil _ _ _ _, _ => True
  | _, _, _, _, _, _, .snoc c m, st => c.Pre st ∧ m.Wired st ∧ st.hooks m.mod.id = []

theorem Chain.pre_congr : {s s' : List Nat} → {n k p l : Nat} → (c : Chain s n s' k p l) → {st st' : Store ℝ} → c.ids.Nodup →
    st'.param = st.param → (∀ i ∈ c.ids, st'.fmaps i = st.fmaps i) →
    (∀ i ∈ c.ids, st'.hooks i = st.hooks i) → c.Pre st → c.Pre st'
  | _, _, _, _, _, _, .nil _ _ _ _, _, _, _, _, _, _ => by simp [Chain.Pre]
  | _, _, _, _, _, _, .snoc c m, st, st', hnd, hp, hfm, hh => by
    simp only [Chain.ids, List.nodup_append] at hnd
    simp only [Chain.Pre]
    intro ⟨h1, h2, h3⟩
    refine ⟨c.pre_congr hnd.1 hp (fun i hi => hfm i (by simp [Chain.ids, hi])) (fun i hi => hh i (by simp [Chain.ids, hi])) h1,
      m.wired_congr hnd.2.1 hp (fun i hi => by rw [hfm i (by simp [Chain.ids, hi])]) (fun i hi _ => hh i (by simp [Chain.ids, hi])) h2, ?_⟩
    rw [hh m.mod.id (by simp [Chain.ids, m.id_mem])]; exact h3

theorem register_other (q : Nat) (ms : List (Mod ℝ)) (h : Nat → List Nat) (i : Nat) (hi : ∀ m ∈ ms, m.id ≠ i) :
    Sequential.register q ms h i = h i := by
  induction ms generalizing h with
  | nil => rfl
  | cons m ms ih =>
    rw [Sequential.register, ih _ fun m' hm' => hi m' (by simp [hm'])]
    rw [if_neg fun h => hi m (by simp) h.symm]

theorem register_append (q : Nat) (ms ms' : List (Mod ℝ)) (h : Nat → List Nat) :
    Sequential.register q (ms ++ ms') h = Sequential.register q ms' (Sequential.register q ms h) := by
  induction ms generalizing h with
  | nil => rfl
  | cons m ms ih => simp only [List.cons_append, Sequential.register]; exact ih _

theorem Chain.mods_tops : {s s' : List Nat} → {n k p l : Nat} → (c : Chain s n s' k p l) → c.mods.map Mod.id = c.tops
  | _, _, _, _, _, _, .nil _ _ _ _ => by simp [Chain.mods, Chain.tops]
  | _, _, _, _, _, _, .snoc c m => by simp [Chain.mods, Chain.tops, c.mods_tops]

theorem Chain.register_wired : {s s' : List Nat} → {n k p l : Nat} → (c : Chain s n s' k p l) → (q : Nat) → {st st' : Store ℝ} →
    c.ids.Nodup → st'.param = st.param → (∀ i ∈ c.ids, st'.fmaps i = st.fmaps i) →
    st'.hooks = Sequential.register q c.mods st.hooks → c.Pre st → c.Wired q st'
  | _, _, _, _, _, _, .nil _ _ _ _, _, _, _, _, _, _, _ => by simp [Chain.Wired]
  | _, _, _, _, _, _, .snoc c m, q, st, st', hnd, hp, hfm, hh => by
    simp only [Chain.ids, List.nodup_append] at hnd
    simp only [Chain.Pre, Chain.Wired]
    intro ⟨h1, h2, h3⟩
    have hne : ∀ i ∈ c.ids, i ≠ m.mod.id := fun i hi h => hnd.2.2 i hi m.mod.id m.id_mem h
    have htop : ∀ i ∈ m.ids, ∀ m' ∈ c.mods, m'.id ≠ i := by
      intro i hi m' hm' he
      have : m'.id ∈ c.tops := by rw [← c.mods_tops]; exact List.mem_map_of_mem hm'
      exact hnd.2.2 _ (c.tops_sub _ this) i hi he
    rw [Chain.mods, register_append] at hh
    simp only [Sequential.register] at hh
    refine ⟨?_, ?_, ?_⟩
    · refine c.wired_congr q hnd.1 (st := { st' with hooks := Sequential.register q c.mods st.hooks }) rfl (fun _ _ => rfl) ?_ ?_
      · intro i hi
        rw [hh]
        simp [hne i hi]
      · exact c.register_wired q hnd.1 hp (fun i hi => hfm i (by simp [Chain.ids, hi])) rfl h1
    · refine m.wired_congr hnd.2.1 hp (fun i hi => by rw [hfm i (by simp [Chain.ids, hi])]) ?_ h2
      intro i hi hi'
      rw [hh]
      simp only [hi', if_false]
      exact register_other _ _ _ _ (htop i hi)
    · rw [hh]
      simp only [if_true]
      rw [register_other _ _ _ _ (htop _ m.id_mem), h3]
      rfl

/-- what running constructors may change -/
structure Built (ids : List Nat) (st st' : Store ℝ) : Prop where
  param : st'.param = st.param
  frame : ∀ i, i ∉ ids → st'.fmaps i = st.fmaps i ∧ st'.hooks i = st.hooks i

theorem Built.trans {ids ids' ids'' : List Nat} {s s' s'' : Store ℝ} (h : Built ids s s') (h' : Built ids' s' s'')
    (h1 : ∀ i ∈ ids, i ∈ ids'') (h2 : ∀ i ∈ ids', i ∈ ids'') : Built ids'' s s'' :=
  ⟨h'.param.trans h.param, fun i hi => by
    have a := h.frame i fun hh => hi (h1 i hh)
    have b := h'.frame i fun hh => hi (h2 i hh)
    exact ⟨b.1.trans a.1, b.2.trans a.2⟩⟩

theorem Net.wired_leaf_pure {ids : List Nat} {st : Store ℝ} {m : Mod ℝ} {P : Store ℝ → Prop} (h : P st) (hh : st.hooks m.id = []) :
    Run (pure m : Prog ℝ (Mod ℝ)) st fun r st' => r = m ∧ P st' ∧ st'.hooks m.id = [] ∧ Built ids st st' :=
  Run.pure ⟨rfl, h, hh, rfl, fun _ _ => ⟨rfl, rfl⟩⟩

theorem seq_init_run {s s' : List Nat} {n k p l : Nat} (c : Chain s n s' k p (l + 1)) (q : Nat) {st : Store ℝ}
    (hnd : (q :: c.ids).Nodup) (hpre : c.Pre st) (hq : st.hooks q = []) :
    Run (Sequential.init q c.mods true) st fun m st' => m = Sequential.mod q true c.mods ∧ (st'.fmaps q).isSome ∧ c.Wired q st' ∧
      st'.hooks q = [] ∧ Built (q :: c.ids) st st' := by
  rw [List.nodup_cons] at hnd
  have hne : ∀ i, i ∉ c.ids → ∀ m' ∈ c.mods, m'.id ≠ i := by
    intro i hi m' hm' he
    have : m'.id ∈ c.tops := by rw [← c.mods_tops]; exact List.mem_map_of_mem hm'
    exact hi (he ▸ c.tops_sub _ this)
  refine Run.ofEq rfl ⟨rfl, by simp, ?_, ?_, ?_⟩
  · refine c.register_wired q hnd.2 (st := st) rfl ?_ rfl hpre
    intro i hi
    show (if i = q then some [] else st.fmaps i) = st.fmaps i
    rw [if_neg]
    rintro rfl
    exact hnd.1 hi
  · show Sequential.register q c.mods st.hooks q = []
    rw [register_other _ _ _ _ (hne q hnd.1), hq]
  · refine ⟨rfl, fun i hi => ?_⟩
    simp only [List.mem_cons, not_or] at hi
    exact ⟨if_neg hi.1, register_other _ _ _ _ (hne i hi.2)⟩

mutual
theorem Net.build_run : {s s' : List Nat} → {n k p : Nat} → (N : Net s n s' k p) → {st : Store ℝ} → N.ids.Nodup → N.Shapes st →
    (∀ i ∈ N.ids, st.hooks i = []) →
    Run N.build st fun m st' => m = N.mod ∧ N.Wired st' ∧ st'.hooks N.mod.id = [] ∧ Built N.ids st st'
  | _, _, _, _, _, .linear _ _ _ _ _ _ _, _, _, hs, hh => by
    rw [Net.build, Net.mod]
    exact Net.wired_leaf_pure (by simpa only [Net.Shapes, Net.Wired] using hs) (hh _ (by simp [Net.ids, Linear.mod, PureLayer.toMod]))
  | _, _, _, _, _, .act _ _ _ _ _ _, _, _, hs, hh => by
    rw [Net.build, Net.mod]
    exact Net.wired_leaf_pure (by simp only [Net.Wired]) (hh _ (by simp [Net.ids, Activation.toMod, PureLayer.toMod]))
  | _, _, _, _, _, .flatten _ _ _ _ _, _, _, hs, hh => by
    rw [Net.build, Net.mod]
    exact Net.wired_leaf_pure (by simp only [Net.Wired]) (hh _ (by simp [Net.ids, Resh.flatten, PureLayer.toMod]))
  | _, _, _, _, _, .reshape _ _ _ _ _ _ _ _ _, _, _, hs, hh => by
    rw [Net.build, Net.mod]
    exact Net.wired_leaf_pure (by simp only [Net.Wired]) (hh _ (by simp [Net.ids, Resh.reshape, PureLayer.toMod]))
  | _, _, _, _, _, .l2norm _ _ _ _ _ _ _, _, _, hs, hh => by
    rw [Net.build, Net.mod]
    exact Net.wired_leaf_pure (by simp only [Net.Wired]) (hh _ (by simp [Net.ids, L2Norm.mod, PureLayer.toMod]))
  | _, _, _, _, _, .conv _ _ bId g, _, _, hs, hh => by
    rw [Net.build, Net.mod, Conv2d.init_eq]
    exact Net.wired_leaf_pure (by simpa only [Net.Shapes, Net.Wired] using hs) (hh _ (by simp [Net.ids, Conv2d.mod, PureLayer.toMod]))
  | _, _, _, _, _, .upsample _ _ _ _ _ _ _ _ _, _, _, hs, hh => by
    rw [Net.build, Net.mod]
    exact Net.wired_leaf_pure (by simp only [Net.Wired]) (hh _ (by simp [Net.ids, Upsample.mod, PureLayer.toMod]))
  | _, _, _, _, _, .maxpool _ _, _, _, hs, hh => by
    rw [Net.build, Net.mod]
    exact Net.wired_leaf_pure (by simp only [Net.Wired]) (hh _ (by simp [Net.ids, MaxPool2d.mod]))
  | _, _, _, _, _, .seq id c, st, hnd, hs, hh => by
    simp only [Net.ids] at hnd
    simp only [Net.Shapes] at hs
    rw [Net.build, Net.mod]
    refine (c.build_run (List.nodup_cons.1 hnd).2 hs fun i hi => hh i (by simp [Net.ids, hi])).bind fun ms st1 ⟨hm, hpre, hb⟩ => ?_
    subst hm
    have hid : st1.hooks id = [] := by
      rw [(hb.frame id (List.nodup_cons.1 hnd).1).2]; exact hh id (by simp [Net.ids])
    refine (seq_init_run c id hnd hpre hid).mono fun m st2 ⟨h1, h2, h3, h4, h5⟩ => ?_
    refine ⟨h1, by simp only [Net.Wired]; exact ⟨h2, h3⟩, h4, hb.trans h5 (by intro i hi; simp [Net.ids, hi]) (by intro i hi; simp only [Net.ids, List.mem_cons] at hi ⊢; tauto)⟩
  | _, _, _, _, _, .skip id fid ch, st, hnd, hs, hh => by
    simp only [Net.ids] at hnd
    simp only [Net.Shapes] at hs
    have hnd2 := (List.nodup_cons.1 hnd).2
    rw [Net.build, Net.mod]
    refine (ch.build_run (List.nodup_cons.1 hnd2).2 hs fun i hi => hh i (by simp [Net.ids, hi])).bind fun ms st1 ⟨hm, hpre, hb⟩ => ?_
    subst hm
    have hid : st1.hooks fid = [] := by
      rw [(hb.frame fid (List.nodup_cons.1 hnd2).1).2]; exact hh fid (by simp [Net.ids])
    rw [SkipConnection.init]
    refine (seq_init_run ch fid hnd2 hpre hid).bind fun m st2 ⟨h1, h2, h3, h4, h5⟩ => ?_
    refine Run.ofEq rfl ⟨by rw [h1], by simp only [Net.Wired]; exact ⟨h2, h4, h3⟩, ?_, hb.trans h5 (by intro i hi; simp [Net.ids, hi]) (by intro i hi; simp only [Net.ids, List.mem_cons] at hi ⊢; tauto)⟩
    show st2.hooks id = []
    have hni := (List.nodup_cons.1 hnd).1
    rw [(h5.frame id hni).2, (hb.frame id fun h => hni (by simp [h])).2]
    exact hh id (by simp [Net.ids])
theorem Chain.build_run : {s s' : List Nat} → {n k p l : Nat} → (c : Chain s n s' k p l) → {st : Store ℝ} → c.ids.Nodup → c.Shapes st →
    (∀ i ∈ c.ids, st.hooks i = []) →
    Run c.build st fun ms st' => ms = c.mods ∧ c.Pre st' ∧ Built c.ids st st'
  | _, _, _, _, _, _, .nil _ _ _ _, st, _, _, _ => by
    rw [Chain.build, Chain.mods]
    refine Run.pure ⟨rfl, by simp only [Chain.Pre], rfl, fun _ _ => ⟨rfl, rfl⟩⟩
  | _, _, _, _, _, _, .snoc c m, st, hnd, hs, hh => by
    simp only [Chain.ids, List.nodup_append] at hnd
    simp only [Chain.Shapes] at hs
    rw [Chain.build, Chain.mods]
    refine (c.build_run hnd.1 hs.1 fun i hi => hh i (by simp [Chain.ids, hi])).bind fun ms st1 ⟨hm, hpre, hb⟩ => ?_
    have hdis : ∀ i ∈ m.ids, i ∉ c.ids := fun i hi h => hnd.2.2 i h i hi rfl
    have hs1 : m.Shapes st1 := m.shapes_congr hb.param hs.2
    refine (m.build_run hnd.2.1 hs1 ?_).bind fun m' st2 ⟨hm', hw, hh', hb'⟩ => ?_
    · intro i hi
      rw [(hb.frame i (hdis i hi)).2]
      exact hh i (by simp [Chain.ids, hi])
    · have hdis' : ∀ i ∈ c.ids, i ∉ m.ids := fun i hi h => hdis i h hi
      refine Run.ofEq rfl ⟨by rw [hm, hm'], ?_, hb.trans hb' (by intro i hi; simp [Chain.ids, hi]) (by intro i hi; simp [Chain.ids, hi])⟩
      simp only [Chain.Pre]
      refine ⟨c.pre_congr hnd.1 hb'.param (fun i hi => (hb'.frame i (hdis' i hi)).1) (fun i hi => (hb'.frame i (hdis' i hi)).2) hpre, hw, hh'⟩
theorem Net.shapes_congr : {s s' : List Nat} → {n k p : Nat} → (N : Net s n s' k p) → {st st' : Store ℝ} → st'.param = st.param →
    N.Shapes st → N.Shapes st'
  | _, _, _, _, _, .linear _ _ _ _ _ _ _, _, _, hp => by simp only [Net.Shapes, hp]; exact fun h => h
  | _, _, _, _, _, .act _ _ _ _ _ _, _, _, _ => by simp [Net.Shapes]
  | _, _, _, _, _, .flatten _ _ _ _ _, _, _, _ => by simp [Net.Shapes]
  | _, _, _, _, _, .reshape _ _ _ _ _ _ _ _ _, _, _, _ => by simp [Net.Shapes]
  | _, _, _, _, _, .l2norm _ _ _ _ _ _ _, _, _, _ => by simp [Net.Shapes]
  | _, _, _, _, _, .conv _ _ _ _, _, _, hp => by simp only [Net.Shapes, hp]; exact fun h => h
  | _, _, _, _, _, .upsample _ _ _ _ _ _ _ _ _, _, _, _ => by simp [Net.Shapes]
  | _, _, _, _, _, .maxpool _ _, _, _, _ => by simp [Net.Shapes]
  | _, _, _, _, _, .seq _ c, _, _, hp => by simp only [Net.Shapes]; exact c.shapes_congr hp
  | _, _, _, _, _, .skip _ _ ch, _, _, hp => by simp only [Net.Shapes]; exact ch.shapes_congr hp
theorem Chain.shapes_congr : {s s' : List Nat} → {n k p l : Nat} → (c : Chain s n s' k p l) → {st st' : Store ℝ} → st'.param = st.param →
    c.Shapes st → c.Shapes st'
  | _, _, _, _, _, _, .nil _ _ _ _, _, _, _ => by simp [Chain.Shapes]
  | _, _, _, _, _, _, .snoc c m, _, _, hp => by
    simp only [Chain.Shapes]; exact fun h => ⟨c.shapes_congr hp h.1, m.shapes_congr hp h.2⟩
end

end NNJ
