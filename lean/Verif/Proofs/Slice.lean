import Verif.Proofs.Unhooked
import Verif.Proofs.Calls
import Verif.Proofs.Build
import Verif.Proofs.NoneNet
import Verif.Spec.Slice
import Verif.Model.SequentialEdit

/-! Networks that share layers with other Sequentials -/

namespace NNJ
open Tensor

variable {s s' : List Nat} {n k p l : Nat} {N : Net s n s' k p} {st st' : Store ℝ} {F : List Nat} {q : Nat}

theorem without_nil : st.without [] = st := by
  cases st; simp [Store.without]

theorem without_cons : st.without (q :: F) = (st.without [q]).without F := by
  cases st with
  | mk a b c d =>
    simp only [Store.without, List.mem_cons, List.not_mem_nil, or_false, Store.mk.injEq, true_and]
    refine ⟨?_, ?_⟩
    · funext i
      by_cases h : i ∈ F <;> by_cases h' : i = q <;> simp [h, h']
    · funext i
      rw [List.filter_filter]
      refine List.filter_congr fun j _ => ?_
      by_cases h : j ∈ F <;> by_cases h' : j = q <;> simp [h, h']

theorem twin_without (h : (st.fmaps q).isSome) : Twin q st (st.without [q]) where
  param := rfl
  pidx := rfl
  fmaps i hi := by simp [Store.without, hi]
  some := h
  none := by simp [Store.without]
  hooks i := by simp [Store.without]

theorem Insens.run {m : Mod ℝ} (h : Insens q m) (x : Tensor ℝ) (val : Option (Tensor ℝ)) (c : Call) : SP q (c.run m x val) := by
  cases c with
  | forward => exact SP.bind (h.forward _) fun _ => SP.pure _
  | jacobian w => exact SP.bind (h.jacobian _ _ _) fun _ => SP.pure _
  | vjp v w => exact SP.bind (h.vjp _ _ _ _) fun _ => SP.pure _
  | mjp v w => exact SP.bind (h.mjp _ _ _ _) fun _ => SP.pure _
  | jvp v w => exact SP.bind (h.jvp _ _ _ _) fun _ => SP.pure _
  | jmp v w => exact SP.bind (h.jmp _ _ _ _) fun _ => SP.pure _
  | jTmjp v w fd td db => exact h.jTmjp _ _ _ _ _ _ _
  | jmjTp v w fd td db => exact SP.bind (h.jmjTp _ _ _ _ _ _ _) fun _ => SP.pure _

theorem Twin.eq_without {t : Store ℝ} (h : Twin q st t) : t = st.without [q] := by
  obtain ⟨a, b, c, d⟩ := t
  obtain ⟨h1, h2, h3, _, h5, h6⟩ := h
  simp only [Store.without, Store.mk.injEq]
  refine ⟨h1.symm, funext fun i => ?_, h2.symm, funext fun i => ?_⟩
  · by_cases e : i = q
    · subst e; simpa using h5
    · simpa [e] using (h3 i e).symm
  · have := h6 i
    simpa using this.symm

/-- hooks and feature maps of outside Sequentials make no difference -/
theorem run_without {β : Type} {P : Prog ℝ β} : (F : List Nat) → {st : Store ℝ} → (∀ q ∈ F, SP q P) → (∀ q ∈ F, (st.fmaps q).isSome) →
    (P st).1 = (P (st.without F)).1 ∧ (P st).2.without F = (P (st.without F)).2
  | [], st, _, _ => by rw [without_nil, without_nil]; exact ⟨rfl, rfl⟩
  | q :: F, st, hP, ha => by
    obtain ⟨h1, h2⟩ := hP q (by simp) _ _ (twin_without (ha q (by simp)))
    by_cases hq : q ∈ F
    · have e : ∀ st : Store ℝ, st.without (q :: F) = st.without F := by
        intro st
        cases st; simp only [Store.without, Store.mk.injEq, true_and]
        refine ⟨funext fun i => ?_, funext fun i => List.filter_congr fun j _ => ?_⟩
        · by_cases h : i = q
          · simp [h, hq]
          · simp [h]
        · by_cases h : j = q
          · simp [h, hq]
          · simp [h]
      rw [e, e]
      exact run_without F (fun q hq => hP q (by simp [hq])) fun q hq => ha q (by simp [hq])
    · rw [without_cons (st := st), without_cons (st := (P st).2), h1, ← h2.eq_without]
      refine run_without F (fun q hq => hP q (by simp [hq])) fun i hi => ?_
      have hne : i ≠ q := fun h => hq (h ▸ hi)
      simpa [Store.without, hne] using ha i (by simp [hi])

theorem Net.OkBut.run_eq (h : N.OkBut F st) (x : Tensor ℝ) (val : Option (Tensor ℝ)) (c : Call) :
    (c.run N.mod x val st).1 = (c.run N.mod x val (st.without F)).1 :=
  (run_without F (fun q hq => (N.insens (h.outside q hq)).run x val c) h.attr).1

theorem Net.OkBut.call_eq (h : N.OkBut F st) (x : Tensor ℝ) :
    (N.mod.call x st).1 = (N.mod.call x (st.without F)).1 ∧ (N.mod.call x st).2.without F = (N.mod.call x (st.without F)).2 :=
  run_without F (fun q hq => (N.insens (h.outside q hq)).call x) h.attr

theorem Keeps.without (h : Keeps st st') : Keeps (st.without F) (st'.without F) where
  param := h.param
  hooks := by simp only [Store.without, h.hooks]
  some i := by
    simp only [Store.without]
    split
    · exact fun h => h
    · exact h.some i

theorem Net.OkBut.keeps (h : N.OkBut F st) (hk : Keeps st st') : N.OkBut F st' :=
  ⟨h.ok.keeps hk.without, h.outside, fun q hq => hk.some q (h.attr q hq)⟩

/-- a new Sequential made of any modules is one more outsider -/
theorem Net.OkBut.init (h : N.OkBut F st) (hq : Fresh q st) (hN : q ∉ N.ids) (ms : List (Mod ℝ)) :
    N.OkBut (q :: F) (Sequential.init q ms true st).2 := by
  have hF : q ∉ F := fun hF => by have := h.attr q hF; rw [hq.attr] at this; cases this
  have e : (Sequential.init q ms true st).2.without (q :: F) = st.without F := by
    show (Store.without (q :: F) ⟨st.param, fun j => if j = q then some [] else st.fmaps j, st.pidx, Sequential.register q ms st.hooks⟩) = _
    simp only [Store.without, Store.mk.injEq, true_and]
    refine ⟨funext fun i => ?_, funext fun i => ?_⟩
    · by_cases h : i = q
      · simp [h, hF, hq.attr]
      · simp [h]
    · have e1 := register_filter (q := q) ms st.hooks i
      have e2 : ∀ L : List Nat, L.filter (· ∉ q :: F) = (L.filter (· ≠ q)).filter (· ∉ F) := fun L => by
        rw [List.filter_filter]
        refine List.filter_congr fun j _ => ?_
        by_cases h : j = q <;> by_cases h' : j ∈ F <;> simp [h, h']
      rw [e2, e1, ← e2]
      refine List.filter_congr fun j hj => ?_
      have : j ≠ q := fun e => hq.hooks i (e ▸ hj)
      simp [this]
  refine ⟨by rw [e]; exact h.ok, ?_, ?_⟩
  · intro j hj
    rcases List.mem_cons.1 hj with rfl | hj
    · exact hN
    · exact h.outside j hj
  · intro j hj
    show Option.isSome (if j = q then _ else _) = true
    by_cases e : j = q
    · simp [e]
    · simp only [e, if_false]
      exact h.attr j (by simpa [e] using hj)

/-! ### the layers of a wired Sequential, without it -/

mutual
theorem Net.hooks_inside : {s s' : List Nat} → {n k p : Nat} → (N : Net s n s' k p) → {st : Store ℝ} → N.Wired st →
    ∀ i ∈ N.ids, i ≠ N.mod.id → ∀ j ∈ st.hooks i, j ∈ N.ids
  | _, _, _, _, _, .linear _ _ _ _ _ _ _, _, _ => by simp [Net.ids, Net.mod, Linear.mod, PureLayer.toMod]
  | _, _, _, _, _, .act _ _ _ _ _ _, _, _ => by simp [Net.ids, Net.mod, Activation.toMod, PureLayer.toMod]
  | _, _, _, _, _, .flatten _ _ _ _ _, _, _ => by simp [Net.ids, Net.mod, Resh.flatten, PureLayer.toMod]
  | _, _, _, _, _, .reshape _ _ _ _ _ _ _ _ _, _, _ => by simp [Net.ids, Net.mod, Resh.reshape, PureLayer.toMod]
  | _, _, _, _, _, .l2norm _ _ _ _ _ _ _, _, _ => by simp [Net.ids, Net.mod, L2Norm.mod, PureLayer.toMod]
  | _, _, _, _, _, .conv _ _ _ _, _, _ => by simp [Net.ids, Net.mod, Conv2d.mod, PureLayer.toMod]
  | _, _, _, _, _, .upsample _ _ _ _ _ _ _ _ _, _, _ => by simp [Net.ids, Net.mod, Upsample.mod, PureLayer.toMod]
  | _, _, _, _, _, .maxpool _ _, _, _ => by simp [Net.ids, Net.mod, MaxPool2d.mod]
  | _, _, _, _, _, .seq id c, st, h => by
    simp only [Net.Wired] at h
    have hc := c.hooks_inside id h.2
    simp only [Net.ids, Net.mod, Sequential.mod, List.mem_cons]
    intro i hi hne j hj
    exact hc i (hi.resolve_left hne) j hj
  | _, _, _, _, _, .skip id fid ch, st, h => by
    simp only [Net.Wired] at h
    have hc := ch.hooks_inside fid h.2.2
    simp only [Net.ids, Net.mod, SkipConnection.mod, List.mem_cons]
    intro i hi hne j hj
    rcases hi.resolve_left hne with rfl | hi
    · rw [h.2.1] at hj; cases hj
    · exact Or.inr (hc i hi j hj)
theorem Chain.hooks_inside : {s s' : List Nat} → {n k p l : Nat} → (c : Chain s n s' k p l) → (q : Nat) → {st : Store ℝ} → c.Wired q st →
    ∀ i ∈ c.ids, ∀ j ∈ st.hooks i, j = q ∨ j ∈ c.ids
  | _, _, _, _, _, _, .nil _ _ _ _, _, _, _ => by simp [Chain.ids]
  | _, _, _, _, _, _, .snoc c m, q, st, h => by
    simp only [Chain.Wired] at h
    have h1 := c.hooks_inside q h.1
    have h2 := m.hooks_inside h.2.1
    simp only [Chain.ids, List.mem_append]
    intro i hi j hj
    rcases hi with hi | hi
    · exact (h1 i hi j hj).imp_right Or.inl
    · by_cases e : i = m.mod.id
      · rw [e, h.2.2, List.mem_singleton] at hj; exact Or.inl hj
      · exact Or.inr (Or.inr (h2 i hi e j hj))
end

theorem Chain.pre_without : {s s' : List Nat} → {n k p l : Nat} → (c : Chain s n s' k p l) → (q : Nat) → {st : Store ℝ} → c.ids.Nodup →
    q ∉ c.ids → c.Wired q st → c.Pre (st.without [q])
  | _, _, _, _, _, _, .nil _ _ _ _, _, _, _, _, _ => by simp [Chain.Pre]
  | _, _, _, _, _, _, .snoc c m, q, st, hnd, hq, h => by
    simp only [Chain.ids, List.nodup_append, List.mem_append, not_or] at hnd hq
    simp only [Chain.Wired] at h
    simp only [Chain.Pre]
    refine ⟨c.pre_without q hnd.1 hq.1 h.1, m.wired_congr hnd.2.1 (st := st) rfl ?_ ?_ h.2.1, ?_⟩
    · intro i hi
      have : i ≠ q := fun e => hq.2 (e ▸ hi)
      simp [Store.without, this]
    · intro i hi hne
      refine List.filter_eq_self.2 fun j hj => ?_
      have : j ≠ q := fun e => hq.2 (e ▸ m.hooks_inside h.2.1 i hi hne j hj)
      simp [this]
    · simp [Store.without, h.2.2]

theorem Chain.len_mods : {s s' : List Nat} → {n k p l : Nat} → (c : Chain s n s' k p l) → c.mods.length = l
  | _, _, _, _, _, _, .nil _ _ _ _ => rfl
  | _, _, _, _, _, _, .snoc c _ => by simp [Chain.mods, c.len_mods]

/-- the slice of a chain -/
theorem Chain.exists_slice : {s s' : List Nat} → {n k p l : Nat} → (c : Chain s n s' k p l) → (a m : Nat) → a + m ≤ l →
    ∃ (s1 s2 : List Nat) (n1 k1 p1 : Nat) (c2 : Chain s1 n1 s2 k1 p1 m), c2.mods = (c.mods.drop a).take m ∧
      c2.ids.Sublist c.ids ∧ (∀ q st, c.Wired q st → c2.Wired q st) ∧ (a + m = l → s2 = s' ∧ k1 = k)
  | _, _, _, _, _, _, .nil s n hs hn, a, m, h => by
    obtain ⟨rfl, rfl⟩ : a = 0 ∧ m = 0 := by omega
    exact ⟨s, s, n, n, 0, .nil s n hs hn, by simp [Chain.mods], by simp [Chain.ids], fun _ _ _ => by simp [Chain.Wired], fun _ => ⟨rfl, rfl⟩⟩
  | _, _, _, _, _, _, .snoc (l := l) c N, a, m, h => by
    have hl : c.mods.length = l := c.len_mods
    rcases Nat.lt_or_ge l (a + m) with hlt | hle
    · obtain rfl | ⟨m, rfl⟩ : m = 0 ∨ ∃ m', m = m' + 1 := by cases m <;> simp
      · obtain rfl : a = l + 1 := by omega
        refine ⟨_, _, _, _, _, .nil _ _ N.sizes.2.1 N.sizes.2.2.2, by simp [Chain.mods], by simp [Chain.ids], fun _ _ _ => by simp [Chain.Wired], fun _ => ⟨rfl, rfl⟩⟩
      · obtain ⟨s1, s2, n1, k1, p1, c2, h1, h2, h3, h4⟩ := c.exists_slice a m (by omega)
        obtain ⟨rfl, rfl⟩ := h4 (by omega)
        refine ⟨s1, _, n1, _, _, .snoc c2 N, ?_, ?_, ?_, fun _ => ⟨rfl, rfl⟩⟩
        · simp only [Chain.mods]
          rw [h1, List.drop_append_of_le_length (by omega), List.take_append, List.length_drop, hl,
            List.take_of_length_le (i := m + 1) (by simp; omega), List.take_of_length_le (i := m) (by simp; omega)]
          simp [show m + 1 - (l - a) = 1 by omega]
        · simp only [Chain.ids]; exact h2.append (List.Sublist.refl _)
        · intro q st hw
          simp only [Chain.Wired] at *
          exact ⟨h3 q st hw.1, hw.2⟩
    · obtain ⟨s1, s2, n1, k1, p1, c2, h1, h2, h3, h4⟩ := c.exists_slice a m hle
      refine ⟨s1, s2, n1, k1, p1, c2, ?_, ?_, ?_, fun e => by omega⟩
      · rw [h1]; simp only [Chain.mods]
        rw [List.drop_append_of_le_length (by omega), List.take_append_of_le_length (by simp; omega)]
      · simp only [Chain.ids]; exact h2.trans (List.sublist_append_left _ _)
      · intro q st hw
        simp only [Chain.Wired] at hw
        exact h3 q st hw.1

theorem register_without {G : List Nat} (hq : q ∉ G) : (ms : List (Mod ℝ)) → (h : Nat → List Nat) →
    (fun i => (Sequential.register q ms h i).filter (· ∉ G)) = Sequential.register q ms fun i => (h i).filter (· ∉ G)
  | [], _ => rfl
  | m :: ms, h => by
    simp only [Sequential.register]
    rw [register_without hq ms]
    congr 1
    funext i
    by_cases e : i = m.id <;> simp [e, hq]

theorem Net.OkBut.slice {id : Nat} {c : Chain s n s' k p (l + 1)} (h : (Net.seq id c).OkBut F st) (hq : Fresh q st) (hN : q ∉ (Net.seq id c).ids)
    {s1 s2 : List Nat} {n1 k1 p1 m : Nat} {c2 : Chain s1 n1 s2 k1 p1 (m + 1)} (hsub : c2.ids.Sublist c.ids)
    (hw : ∀ st, c.Wired id st → c2.Wired id st) : (Net.seq q c2).OkBut (id :: F) (Sequential.init q c2.mods true st).2 := by
  have hF : q ∉ F := fun hF => by have := h.attr q hF; rw [hq.attr] at this; cases this
  have hnd := h.ok.nodup
  have hwd := h.ok.wired
  simp only [Net.ids, List.mem_cons, not_or, List.nodup_cons] at hN hnd
  simp only [Net.Wired] at hwd
  have hid : id ∉ F := fun hid => by simp [Store.without, hid] at hwd
  have hattr : (st.fmaps id).isSome := by simpa [Store.without, hid] using hwd.1
  have hqG : q ∉ id :: F := by simp [hF, hN.1]
  have e : (st.without F).without [id] = st.without (id :: F) := by
    cases st; simp only [Store.without, Store.mk.injEq, true_and]
    refine ⟨funext fun i => ?_, funext fun i => ?_⟩
    · by_cases h : i = id <;> simp [h]
    · rw [List.filter_filter]
      refine List.filter_congr fun j _ => ?_
      by_cases h : j = id <;> simp [h]
  have hid2 : id ∉ c2.ids := fun hh => hnd.1 (hsub.subset hh)
  have hpre : c2.Pre (st.without (id :: F)) := e ▸ c2.pre_without id (hnd.2.sublist hsub) hid2 (hw _ hwd.2)
  refine ⟨⟨?_, ?_⟩, ?_, ?_⟩
  · simp only [Net.ids, List.nodup_cons]
    exact ⟨fun hh => hN.2 (hsub.subset hh), hnd.2.sublist hsub⟩
  · simp only [Net.Wired]
    refine ⟨?_, c2.register_wired q (hnd.2.sublist hsub) (st := st.without (id :: F)) rfl ?_ ?_ hpre⟩
    · show Option.isSome (if q ∈ id :: F then none else if q = q then _ else _) = true
      simp [hqG]
    · intro i hi
      have : i ≠ q := fun e => hN.2 (hsub.subset (e ▸ hi))
      show (if i ∈ id :: F then none else if i = q then some [] else st.fmaps i) = (if i ∈ id :: F then none else st.fmaps i)
      simp [this]
    · exact register_without hqG c2.mods st.hooks
  · intro j hj
    simp only [Net.ids, List.mem_cons, not_or] at hj ⊢
    refine ⟨?_, ?_⟩
    · rintro rfl; exact hqG (by simpa using hj)
    · rcases hj with rfl | hj
      · exact hid2
      · have := h.outside j hj
        simp only [Net.ids, List.mem_cons, not_or] at this
        exact fun hh => this.2 (hsub.subset hh)
  · intro j hj
    show Option.isSome (if j = q then _ else _) = true
    by_cases e : j = q
    · simp [e]
    · simp only [e, if_false]
      rcases List.mem_cons.1 hj with rfl | hj
      · exact hattr
      · exact h.attr j hj

end NNJ
