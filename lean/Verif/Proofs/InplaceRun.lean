import Verif.Proofs.InplaceNet

/-! The forward pass with in-place ReLUs. -/

namespace NNJ
open Tensor Matrix

theorem reluF_eq (a : ℝ) : Activation.reluF a = max a 0 := by
  simp only [Activation.reluF]
  split_ifs with h
  · exact (max_eq_right h.le).symm
  · exact (max_eq_left (not_lt.1 h)).symm

/-- a storage, overwritten or not -/
noncomputable def rlF (c : Bool) (f : Nat → ℝ) : Nat → ℝ := fun i => if c then max (f i) 0 else f i

theorem rlF_false (f : Nat → ℝ) : rlF false f = f := rfl
theorem rlF_rlF (c d : Bool) (f : Nat → ℝ) : rlF c (rlF d f) = rlF (d || c) f := by
  funext i
  cases c <;> cases d <;> simp [rlF]

theorem IsBatch.rl {t : Tensor ℝ} {B n : Nat} {s : List Nat} {X : Fin B → Fin n → ℝ} (h : IsBatch t B s n X) (c : Bool) {u : Tensor ℝ}
    (hs : u.shape = t.shape) (hd : u.data = rlF c t.data) : IsBatch u B s n fun b => rl c (X b) := by
  refine ⟨hs.trans h.1, fun b i => ?_⟩
  rw [hd]
  simp only [rlF, NNJ.rl, h.2]

mutual
theorem Net.w_congr : {s s' : List Nat} → {n k p : Nat} → (N : Net s n s' k p) → {st st' : Store ℝ} → st'.param = st.param → N.w st' = N.w st
  | _, _, _, _, _, .linear _ wId bId i o _ _, _, _, e => by simp only [Net.w, linearW, e]
  | _, _, _, _, _, .act _ _ _ _ _ _, _, _, _ => by simp only [Net.w]
  | _, _, _, _, _, .flatten _ _ _ _ _, _, _, _ => by simp only [Net.w]
  | _, _, _, _, _, .reshape _ _ _ _ _ _ _ _ _, _, _, _ => by simp only [Net.w]
  | _, _, _, _, _, .l2norm _ _ _ _ _ _ _, _, _, _ => by simp only [Net.w]
  | _, _, _, _, _, .conv _ wId bId g, _, _, e => by simp only [Net.w, convW, e]
  | _, _, _, _, _, .upsample _ _ _ _ _ _ _ _ _, _, _, _ => by simp only [Net.w]
  | _, _, _, _, _, .maxpool _ _, _, _, _ => by simp only [Net.w]
  | _, _, _, _, _, .seq _ c, _, _, e => by simp only [Net.w]; exact Chain.w_congr c e
  | _, _, _, _, _, .skip _ _ ch, _, _, e => by simp only [Net.w]; exact Chain.w_congr ch e
theorem Chain.w_congr : {s s' : List Nat} → {n k p l : Nat} → (c : Chain s n s' k p l) → {st st' : Store ℝ} → st'.param = st.param → c.w st' = c.w st
  | _, _, _, _, _, _, .nil _ _ _ _, _, _, _ => by simp only [Chain.w]
  | _, _, _, _, _, _, .snoc c m, _, _, e => by simp only [Chain.w, Chain.w_congr c e, Net.w_congr m e]
end

mutual
/-- is the output a view of the input? -/
def Net.alias (ip : Nat → Bool) : {s s' : List Nat} → {n k p : Nat} → Net s n s' k p → Bool
  | _, _, _, _, _, .linear _ _ _ _ _ _ _ => false
  | _, _, _, _, _, .act a id _ _ _ _ => a.inplace ip id
  | _, _, _, _, _, .flatten _ _ _ _ _ => true
  | _, _, _, _, _, .reshape _ _ _ _ _ _ _ _ _ => true
  | _, _, _, _, _, .l2norm _ _ _ _ _ _ _ => false
  | _, _, _, _, _, .conv _ _ _ _ => false
  | _, _, _, _, _, .upsample _ _ _ _ _ _ _ _ _ => false
  | _, _, _, _, _, .maxpool _ _ => false
  | _, _, _, _, _, .seq _ c => c.alias ip
  | _, _, _, _, _, .skip _ _ _ => false
def Chain.alias (ip : Nat → Bool) : {s s' : List Nat} → {n k p l : Nat} → Chain s n s' k p l → Bool
  | _, _, _, _, _, _, .nil _ _ _ _ => true
  | _, _, _, _, _, _, .snoc c m => c.alias ip && m.alias ip
end

mutual
theorem Net.ow_al (ip : Nat → Bool) : {s s' : List Nat} → {n k p : Nat} → (N : Net s n s' k p) → (b : Bool) →
    N.overwrites ip b = (N.overwrites ip false || (N.alias ip && b))
  | _, _, _, _, _, .linear _ _ _ _ _ _ _, _ => by simp [Net.overwrites, Net.alias]
  | _, _, _, _, _, .act a id _ _ _ _, b => by simp only [Net.overwrites, Net.alias]; cases a.inplace ip id <;> simp
  | _, _, _, _, _, .flatten _ _ _ _ _, _ => by simp [Net.overwrites, Net.alias]
  | _, _, _, _, _, .reshape _ _ _ _ _ _ _ _ _, _ => by simp [Net.overwrites, Net.alias]
  | _, _, _, _, _, .l2norm _ _ _ _ _ _ _, _ => by simp [Net.overwrites, Net.alias]
  | _, _, _, _, _, .conv _ _ _ _, _ => by simp [Net.overwrites, Net.alias]
  | _, _, _, _, _, .upsample _ _ _ _ _ _ _ _ _, _ => by simp [Net.overwrites, Net.alias]
  | _, _, _, _, _, .maxpool _ _, _ => by simp [Net.overwrites, Net.alias]
  | _, _, _, _, _, .seq _ c, b => by simp only [Net.overwrites, Net.alias]; exact Chain.ow_al ip c b
  | _, _, _, _, _, .skip _ _ _, _ => by simp [Net.overwrites, Net.alias]
theorem Chain.ow_al (ip : Nat → Bool) : {s s' : List Nat} → {n k p l : Nat} → (c : Chain s n s' k p l) → (b : Bool) →
    c.overwrites ip b = (c.overwrites ip false || (c.alias ip && b))
  | _, _, _, _, _, _, .nil _ _ _ _, _ => by simp [Chain.overwrites, Chain.alias]
  | _, _, _, _, _, _, .snoc c m, b => by
    simp only [Chain.overwrites, Chain.alias]
    rw [Chain.ow_al ip c (m.overwrites ip b), Chain.ow_al ip c (m.overwrites ip false), Net.ow_al ip m b]
    cases c.overwrites ip false <;> cases c.alias ip <;> cases m.overwrites ip false <;> simp
end

/-- as `Step` -/
structure HStep (ids : List Nat) (h h' : HStore ℝ) : Prop where
  param : h'.param = h.param
  hooks : h'.hooks = h.hooks
  some : ∀ i, (h'.fmaps i).isSome = (h.fmaps i).isSome
  frame : ∀ i, i ∉ ids → h'.fmaps i = h.fmaps i ∧ h'.pidx i = h.pidx i
  next : h.next ≤ h'.next

namespace HStep
variable {ids ids' : List Nat} {h h' h'' : HStore ℝ}
theorem refl : HStep ids h h := ⟨rfl, rfl, fun _ => rfl, fun _ _ => ⟨rfl, rfl⟩, le_rfl⟩
theorem trans (a : HStep ids h h') (b : HStep ids h' h'') : HStep ids h h'' :=
  ⟨b.param.trans a.param, b.hooks.trans a.hooks, fun i => (b.some i).trans (a.some i), fun i hi =>
    ⟨(b.frame i hi).1.trans (a.frame i hi).1, (b.frame i hi).2.trans (a.frame i hi).2⟩, a.next.trans b.next⟩
theorem mono (a : HStep ids h h') (hsub : ∀ i ∈ ids, i ∈ ids') : HStep ids' h h' :=
  ⟨a.param, a.hooks, a.some, fun i hi => a.frame i fun hh => hi (hsub i hh), a.next⟩
theorem wiring (a : HStep ids h h') : Wiring h.view h'.view :=
  ⟨fun i => by simp only [HStore.view, a.param], a.hooks, fun i => by simp only [HStore.view, Option.isSome_map]; exact a.some i⟩
end HStep

/-- later on, storages are as at the end of the call, except that the one of the result may have been overwritten -/
structure Later (cor : Bool) (v : Ref) (h' : HStore ℝ) (mem : Nat → Nat → ℝ) : Prop where
  same : ∀ c, c < h'.next → c ≠ v.cell → mem c = h'.mem c
  out : mem v.cell = rlF cor (h'.mem v.cell)

/-- a store whose entries for `ids` are those of `h'`, with storages `mem` -/
structure Sees (ids : List Nat) (h' : HStore ℝ) (mem : Nat → Nat → ℝ) (st : Store ℝ) : Prop where
  param : st.param = h'.param
  at' : ∀ i ∈ ids, st.fmaps i = (h'.fmaps i).map (List.map (Ref.get mem)) ∧ st.pidx i = h'.pidx i

theorem Sees.mono {ids ids' : List Nat} {h' : HStore ℝ} {mem : Nat → Nat → ℝ} {st : Store ℝ} (a : Sees ids h' mem st) (hs : ∀ i ∈ ids', i ∈ ids) :
    Sees ids' h' mem st := ⟨a.param, fun i hi => a.at' i (hs i hi)⟩

theorem Sees.step {ids ids' : List Nat} {h h' : HStore ℝ} {mem : Nat → Nat → ℝ} {st : Store ℝ} (a : Sees ids h' mem st) (hs : HStep ids' h h')
    (hd : ∀ i ∈ ids, i ∉ ids') : Sees ids h mem st :=
  ⟨a.param.trans hs.param, fun i hi => by rw [(a.at' i hi).1, (a.at' i hi).2, (hs.frame i (hd i hi)).1, (hs.frame i (hd i hi)).2]; exact ⟨rfl, rfl⟩⟩

/-- what a call does to the storages -/
structure HMem (al : Bool) (ow : Bool) (x v : Ref) (h h' : HStore ℝ) : Prop where
  lt : v.cell < h'.next
  next : h.next ≤ h'.next
  al : if al then v.cell = x.cell else h.next ≤ v.cell
  keep : ∀ c, c < h.next → c ≠ x.cell → h'.mem c = h.mem c
  xin : h'.mem x.cell = rlF ow (h.mem x.cell)

theorem HMem.trans {al1 al2 o1 o2 : Bool} {x v v2 : Ref} {h h1 h2 : HStore ℝ} (a : HMem al1 o1 x v h h1) (b : HMem al2 o2 v v2 h1 h2)
    (hlt : x.cell < h.next) : HMem (al1 && al2) (o1 || (al1 && o2)) x v2 h h2 := by
  refine ⟨b.lt, a.next.trans b.next, ?_, fun c hc hx => ?_, ?_⟩
  · have h1 := a.al
    have h2 := b.al
    cases al1 <;> cases al2 <;> simp at h1 h2 ⊢
    · exact a.next.trans h2
    · rw [h2]; exact h1
    · exact a.next.trans h2
    · rw [h2, h1]
  · have hv : c ≠ v.cell := by
      have := a.al
      cases al1 <;> simp at this
      · omega
      · rw [this]; exact hx
    rw [b.keep c (lt_of_lt_of_le hc a.next) hv, a.keep c hc hx]
  · have := a.al
    cases al1 <;> simp at this
    · rw [b.keep _ (lt_of_lt_of_le hlt a.next) (by omega), a.xin]
      simp
    · rw [← this, b.xin, this, a.xin, rlF_rlF]
      simp

/-- the storages at the end of the second call, from the point of view of the first -/
theorem HMem.later {al o cor : Bool} {v v2 : Ref} {h1 h2 : HStore ℝ} {mem : Nat → Nat → ℝ} (b : HMem al o v v2 h1 h2) (hlt : v.cell < h1.next)
    (hm : Later cor v2 h2 mem) : Later (o || (al && cor)) v h1 mem := by
  have hal := b.al
  refine ⟨fun c hc hv => ?_, ?_⟩
  · have hv2 : c ≠ v2.cell := by
      cases al <;> simp at hal
      · omega
      · rw [hal]; exact hv
    rw [hm.same c (lt_of_lt_of_le hc b.next) hv2, b.keep c hc hv]
  · cases al <;> simp at hal
    · rw [hm.same _ (lt_of_lt_of_le hlt b.next) (by omega), b.xin]
      simp
    · rw [← hal, hm.out, hal, b.xin, rlF_rlF]
      simp

/-- a call of a network -/
structure HRan (ip : Nat → Bool) {s s' : List Nat} {n k p : Nat} (N : Net s n s' k p) (B : Nat) (X : Fin B → Fin n → ℝ) (x v : Ref) (h h' : HStore ℝ) : Prop where
  out : IsBatch (v.get h'.mem) B s' k fun b => N.sem.f (N.w h.view) (X b)
  mem : HMem (N.alias ip) (N.overwrites ip false) x v h h'
  step : HStep N.ids h h'
  cache : ∀ cor mem st, Later cor v h' mem → Sees N.ids h' mem st → (N.ipMdl ip cor).cache B (fun b => rl (N.overwrites ip cor) (X b)) st

/-- a run through a chain -/
structure HRanC (ip : Nat → Bool) {s s' : List Nat} {n k p l : Nat} (q : Nat) (c : Chain s n s' k p l) (B : Nat) (X : Fin B → Fin n → ℝ) (L : List Ref)
    (x v : Ref) (h h' : HStore ℝ) : Prop where
  out : IsBatch (v.get h'.mem) B s' k fun b => c.sem.f (c.w h.view) (X b)
  mem : HMem (c.alias ip) (c.overwrites ip false) x v h h'
  step : HStep (q :: c.ids) h h'
  list : ∃ E, h'.fmaps q = some (L ++ E) ∧ E.length = l ∧ ∀ cor mem st, Later cor v h' mem → Sees c.ids h' mem st →
    (c.ipMchain ip cor).kids B (fun b => rl (c.overwrites ip cor) (X b)) st ∧
      MChain.listOk ((x :: E).map (Ref.get mem)) (c.ipMchain ip cor) B (fun b => rl (c.overwrites ip cor) (X b)) (c.w h.view)

section
variable {s s' : List Nat} {n k p B : Nat} {X : Fin B → Fin n → ℝ} {x : Ref} {h : HStore ℝ} {ip : Nat → Bool}

theorem hrun_fresh {N : Net s n s' k p} (hm : N.hmod ip = .fresh N.mod) (hal : N.alias ip = false) (how : ∀ b, N.overwrites ip b = false)
    (hip : ∀ cor, (N.ipMdl ip cor).cache B = N.mdl.cache B)
    (hc : ∀ {st st' : Store ℝ}, (∀ i ∈ N.ids, st'.pidx i = st.pidx i) → N.mdl.cache B X st → N.mdl.cache B X st')
    (hnd : N.ids.Nodup) (hw : N.Wired h.view) (hB : 0 < B) (hx : IsBatch (x.get h.mem) B s n X) (hlt : x.cell < h.next) :
    ∃ v h', (N.hmod ip).forward x h = (.ok v, h') ∧ HRan ip N B X x v h h' := by
  have hg := N.good hnd
  obtain ⟨t, s2, ht, hY, hs, hcache⟩ := hg.forward ((N.mdl_wired _).2 hw) hB hx
  rw [Net.mdl_m] at ht
  rw [hm]
  simp only [HMod.fresh, ht, HProg.alloc]
  refine ⟨_, _, rfl, ?_, ⟨?_, ?_, ?_, ?_, ?_⟩, ⟨rfl, rfl, fun _ => rfl, fun i hi => ⟨rfl, ?_⟩, ?_⟩, ?_⟩
  · refine ⟨hY.1, fun b i => ?_⟩
    have := hY.2 b i
    simp only [Ref.get, if_true]
    rw [this]
    simp only [Mdl.Y, Net.mdl_S, Net.mdl_w]
  · exact Nat.lt_succ_self _
  · exact Nat.le_succ _
  · rw [hal]; exact le_rfl
  · intro c hc _
    show (if c = h.next then _ else _) = _
    rw [if_neg (by omega)]
  · show (if x.cell = h.next then _ else _) = _
    rw [if_neg (by omega), how]
    rfl
  · exact (hs.frame i (by rw [Net.mdl_ids]; exact hi)).2
  · exact Nat.le_succ _
  · intro cor mem st _ hst
    rw [how]
    simp only [rl_false]
    rw [hip]
    exact hc (fun i hi => (hst.at' i hi).2) hcache

theorem hrun_view {N : Net s n s' n p} (hm : N.hmod ip = .viewOf N.mod) (hal : N.alias ip = true) (how : ∀ b, N.overwrites ip b = b)
    (hip : ∀ cor, (N.ipMdl ip cor).cache B = fun _ _ => True) (hf : ∀ w y, N.sem.f w y = y)
    (hnd : N.ids.Nodup) (hw : N.Wired h.view) (hB : 0 < B) (hx : IsBatch (x.get h.mem) B s n X) (hlt : x.cell < h.next) :
    ∃ v h', (N.hmod ip).forward x h = (.ok v, h') ∧ HRan ip N B X x v h h' := by
  have hg := N.good hnd
  obtain ⟨t, s2, ht, hY, hs, hcache⟩ := hg.forward ((N.mdl_wired _).2 hw) hB hx
  rw [Net.mdl_m] at ht
  rw [hm]
  simp only [HMod.viewOf, ht]
  refine ⟨_, _, rfl, ?_, ⟨hlt, le_rfl, ?_, fun _ _ _ => rfl, ?_⟩, .refl, ?_⟩
  · refine ⟨hY.1, fun b i => ?_⟩
    show _ = N.sem.f _ _ i
    rw [hf]
    exact hx.2 b i
  · rw [hal]; rfl
  · rw [how]; rfl
  · intro cor mem st _ hst
    rw [hip]
    trivial

end

theorem HMod.run_append {ms ms' : List (HMod ℝ)} {x v : Ref} {h h1 : HStore ℝ} (e : HMod.run ms x h = (.ok v, h1)) :
    HMod.run (ms ++ ms') x h = HMod.run ms' v h1 := by
  induction ms generalizing x h with
  | nil => cases e; rfl
  | cons m ms ih =>
    simp only [HMod.run, List.cons_append, bind, HProg.bind] at e ⊢
    cases hc : m.call x h with
    | mk r h2 =>
      cases r with
      | ok y =>
        rw [hc] at e
        exact ih e
      | error err =>
        rw [hc] at e
        cases e

theorem HMod.call_nil {m : HMod ℝ} {x v : Ref} {h h' : HStore ℝ} (e : m.forward x h = (.ok v, h')) (hh : h'.hooks m.id = []) :
    m.call x h = (.ok v, h') := by
  simp only [HMod.call, bind, HProg.bind, e, hh, HMod.runHooks, HProg.pure, pure]

theorem HMod.call_one {m : HMod ℝ} {x v : Ref} {h h' : HStore ℝ} {q : Nat} {L : List Ref} (e : m.forward x h = (.ok v, h')) (hh : h'.hooks m.id = [q])
    (hL : h'.fmaps q = some L) :
    m.call x h = (.ok v, { h' with fmaps := fun j => if j = q then some (L ++ [v]) else h'.fmaps j }) := by
  simp only [HMod.call, bind, HProg.bind, e, hh, HMod.runHooks, HMod.runHook, hL, HProg.pure, pure]

theorem Net.hmod_id (ip : Nat → Bool) {s s' : List Nat} {n k p : Nat} (N : Net s n s' k p) : (N.hmod ip).id = N.mod.id := by
  cases N with
  | act a id s n hs hn =>
    simp only [Net.hmod, Net.mod]
    split_ifs <;> rfl
  | _ => simp only [Net.hmod, Net.mod] <;> rfl

/-- recording the output -/
theorem HStep.append {ids : List Nat} {h h' : HStore ℝ} {q : Nat} {L : List Ref} {v : Ref} (a : HStep ids h h') (hL : h'.fmaps q = Option.some L) :
    HStep (q :: ids) h { h' with fmaps := fun j => if j = q then Option.some (L ++ [v]) else h'.fmaps j } := by
  refine ⟨a.param, a.hooks, fun i => ?_, fun i hi => ⟨?_, (a.frame i fun hh => hi (List.mem_cons_of_mem _ hh)).2⟩, a.next⟩
  · show Option.isSome (if i = q then _ else _) = _
    split_ifs with e
    · subst e; rw [← a.some, hL]; rfl
    · exact a.some i
  · show (if i = q then _ else _) = _
    rw [if_neg fun e => hi (by simp [e])]
    exact (a.frame i fun hh => hi (List.mem_cons_of_mem _ hh)).1

mutual
theorem Net.hrun (ip : Nat → Bool) : {s s' : List Nat} → {n k p : Nat} → (N : Net s n s' k p) → {B : Nat} → {X : Fin B → Fin n → ℝ} → {x : Ref} →
    {h : HStore ℝ} → N.ids.Nodup → N.SkipsSafe ip → N.Wired h.view → 0 < B → IsBatch (x.get h.mem) B s n X → x.cell < h.next →
    ∃ v h', (N.hmod ip).forward x h = (.ok v, h') ∧ HRan ip N B X x v h h'
  | _, _, _, _, _, .linear id wId bId i o hi ho, _, _, _, _, hnd, _, hw, hB, hx, hlt => by
    refine hrun_fresh ?_ ?_ (fun _ => ?_) (fun cor => ?_) (fun _ _ => trivial) hnd hw hB hx hlt
    · simp only [Net.hmod, Net.mod]
    · simp only [Net.alias]
    · simp only [Net.overwrites]
    · cases cor <;> rfl
  | _, _, _, _, _, .act a id s n hs hn, B, X, x, h, hnd, _, hw, hB, hx, hlt => by
    by_cases hi : a.inplace ip id = true
    · have ha : a = .relu := by
        cases a with
        | relu => rfl
        | _ => simp [Act.inplace] at hi
      subst ha
      simp only [Net.hmod, hi, if_true, HMod.reluInplace]
      refine ⟨_, _, rfl, ?_, ⟨hlt, le_rfl, ?_, fun c _ hc => ?_, ?_⟩, ⟨rfl, rfl, fun _ => rfl, fun _ _ => ⟨rfl, rfl⟩, le_rfl⟩, ?_⟩
      · refine ⟨hx.1, fun b i => ?_⟩
        have := hx.2 b i
        simp only [Ref.get] at this
        simp only [Ref.get, if_true, this, reluF_eq, Net.sem, Act.sem, Sem.leaf0, Sem.leaf, Act.fn]
      · simp only [Net.alias, hi, if_true]
      · show (if c = x.cell then _ else _) = _
        rw [if_neg hc]
      · simp only [Net.overwrites, hi, if_true]
        funext i
        simp [rlF, reluF_eq]
      · intro cor mem st _ _
        cases cor <;> trivial
    · simp only [Bool.not_eq_true] at hi
      refine hrun_fresh ?_ ?_ (fun _ => ?_) (fun cor => ?_) (fun _ _ => trivial) hnd hw hB hx hlt
      · simp [Net.hmod, Net.mod, hi]
      · simp only [Net.alias, hi]
      · simp only [Net.overwrites, hi]
      · cases cor <;> rfl
  | _, _, _, _, _, .flatten id s n hs hn, _, _, _, _, hnd, _, hw, hB, hx, hlt => by
    refine hrun_view ?_ ?_ (fun _ => ?_) (fun cor => rfl) (fun _ _ => ?_) hnd hw hB hx hlt
    · simp only [Net.hmod, Net.mod]
    · simp only [Net.alias]
    · simp only [Net.overwrites]
    · simp only [Net.sem]; rfl
  | _, _, _, _, _, .reshape id s dims n hs hd hn z hz, _, _, _, _, hnd, _, hw, hB, hx, hlt => by
    refine hrun_view ?_ ?_ (fun _ => ?_) (fun cor => rfl) (fun _ _ => ?_) hnd hw hB hx hlt
    · simp only [Net.hmod, Net.mod]
    · simp only [Net.alias]
    · simp only [Net.overwrites]
    · simp only [Net.sem]; rfl
  | _, _, _, _, _, .l2norm id eps s n hs hr hn, _, _, _, _, hnd, _, hw, hB, hx, hlt => by
    refine hrun_fresh ?_ ?_ (fun _ => ?_) (fun cor => ?_) (fun _ _ => trivial) hnd hw hB hx hlt
    · simp only [Net.hmod, Net.mod]
    · simp only [Net.alias]
    · simp only [Net.overwrites]
    · cases cor <;> rfl
  | _, _, _, _, _, .conv id wId bId g, _, _, _, _, hnd, _, hw, hB, hx, hlt => by
    refine hrun_fresh ?_ ?_ (fun _ => ?_) (fun cor => ?_) (fun _ _ => trivial) hnd hw hB hx hlt
    · simp only [Net.hmod, Net.mod]
    · simp only [Net.alias]
    · simp only [Net.overwrites]
    · cases cor <;> rfl
  | _, _, _, _, _, .upsample id c h w r hc hh hw hr, _, _, _, _, hnd, _, hw', hB, hx, hlt => by
    refine hrun_fresh ?_ ?_ (fun _ => ?_) (fun cor => ?_) (fun _ _ => trivial) hnd hw' hB hx hlt
    · simp only [Net.hmod, Net.mod]
    · simp only [Net.alias]
    · simp only [Net.overwrites]
    · cases cor <;> rfl
  | _, _, _, _, _, .maxpool id g, _, _, _, _, hnd, _, hw, hB, hx, hlt => by
    refine hrun_fresh ?_ ?_ (fun _ => ?_) (fun cor => ?_) ?_ hnd hw hB hx hlt
    · simp only [Net.hmod, Net.mod]
    · simp only [Net.alias]
    · simp only [Net.overwrites]
    · cases cor <;> rfl
    · rintro st st' e ⟨idx, h1, h2⟩
      exact ⟨idx, by rw [e id (by simp [Net.ids])]; exact h1, h2⟩
  | _, _, _, _, _, .seq id c, B, X, x, h, hnd, hsafe, hw, hB, hx, hlt => by
    simp only [Net.ids] at hnd
    simp only [Net.SkipsSafe] at hsafe
    simp only [Net.Wired] at hw
    have g0 : HStep (id :: c.ids) h { h with fmaps := fun j => if j = id then some [x] else h.fmaps j } := by
      refine ⟨rfl, rfl, fun i => ?_, fun i hi => ⟨?_, rfl⟩, le_rfl⟩
      · show Option.isSome (if i = id then _ else _) = _
        split_ifs with e
        · subst e
          have := hw.1
          simp only [HStore.view, Option.isSome_map] at this
          rw [this]; rfl
        · rfl
      · show (if i = id then _ else _) = _
        rw [if_neg fun e => hi (by simp [e])]
    obtain ⟨v, h', e, hr⟩ := Chain.hrun ip c (q := id) (L := [x]) (B := B) (X := X) (x := x) hnd hsafe
      ((c.mchain_wired id _).1 (c.mchain.wired_of (c.good (List.nodup_cons.1 hnd).2).toI g0.wiring ((c.mchain_wired id _).2 hw.2))) hB hx hlt (by simp)
    refine ⟨v, h', ?_, ?_, ?_, ?_, ?_⟩
    · simp only [Net.hmod, HMod.sequential, bind, HProg.bind]
      exact e
    · simp only [Net.sem, Net.w]
      have := hr.out
      have ew : c.w ({ h with fmaps := fun j => if j = id then some [x] else h.fmaps j } : HStore ℝ).view = c.w h.view := c.w_congr rfl
      rwa [ew] at this
    · simp only [Net.alias, Net.overwrites]
      exact ⟨hr.mem.lt, hr.mem.next, hr.mem.al, hr.mem.keep, hr.mem.xin⟩
    · simp only [Net.ids]
      exact g0.trans hr.step
    · intro cor mem st hm hst
      simp only [Net.ids] at hst
      simp only [Net.overwrites, Net.ipMdl, seqMdl]
      obtain ⟨E, hE, hl, hc⟩ := hr.list
      obtain ⟨h1, h2⟩ := hc cor mem st hm (hst.mono fun i hi => List.mem_cons_of_mem _ hi)
      refine ⟨⟨(x :: E).map (Ref.get mem), ?_, ?_⟩, h1⟩
      · rw [(hst.at' id (by simp)).1, hE]; rfl
      · rw [(Chain.ip_sim ip c cor).w, Chain.mchain_w, c.w_congr (st := ({ h with fmaps := fun j => if j = id then some [x] else h.fmaps j } : HStore ℝ).view)
          (st' := st) (hst.param.trans hr.step.param)]
        exact h2
  | _, _, _, _, _, @Net.skip a c r n k p l id fid ch, B, X, x, h, hnd, hsafe, hw, hB, hx, hlt => by
    simp only [Net.ids] at hnd
    have hnd2 := (List.nodup_cons.1 hnd).2
    simp only [Net.SkipsSafe] at hsafe
    simp only [Net.Wired] at hw
    have g0 : HStep (fid :: ch.ids) h { h with fmaps := fun j => if j = fid then some [x] else h.fmaps j } := by
      refine ⟨rfl, rfl, fun i => ?_, fun i hi => ⟨?_, rfl⟩, le_rfl⟩
      · show Option.isSome (if i = fid then _ else _) = _
        split_ifs with e
        · subst e
          have := hw.1
          simp only [HStore.view, Option.isSome_map] at this
          rw [this]; rfl
        · rfl
      · show (if i = fid then _ else _) = _
        rw [if_neg fun e => hi (by simp [e])]
    obtain ⟨v, h', e, hr⟩ := Chain.hrun ip ch (q := fid) (L := [x]) (B := B) (X := X) (x := x) hnd2 hsafe.2
      ((ch.mchain_wired fid _).1 (ch.mchain.wired_of (ch.good (List.nodup_cons.1 hnd2).2).toI g0.wiring ((ch.mchain_wired fid _).2 hw.2.2))) hB hx hlt (by simp)
    have e1 : (HMod.sequential fid (ch.hmods ip)).forward x h = (.ok v, h') := by
      simp only [HMod.sequential, bind, HProg.bind]
      exact e
    have e2 := HMod.call_nil e1 (by rw [hr.step.hooks]; exact hw.2.1)
    have hx' : IsBatch (x.get h'.mem) B (a :: r) n X := by
      have : x.get h'.mem = x.get h.mem := by
        simp only [Ref.get, hr.mem.xin, hsafe.1]; rfl
      rw [this]; exact hx
    have hsz := (ch.mchain.sizes (ch.good (List.nodup_cons.1 hnd2).2).toI)
    obtain ⟨t, ht, hT⟩ := cat2_batch hx' hr.out hsz.1 hsz.2.2.1
    simp only [Net.hmod, HMod.skip, bind, HProg.bind, e2, ht, HProg.alloc]
    have hle : h.next ≤ h'.next := hr.step.next
    have hvl := hr.mem.lt
    refine ⟨_, _, rfl, ?_, ⟨?_, ?_, ?_, ?_, ?_⟩, ⟨?_, ?_, ?_, fun i hi => ?_, ?_⟩, ?_⟩
    · refine ⟨hT.1, fun b i => ?_⟩
      have := hT.2 b i
      simp only [Ref.get, if_true]
      rw [this]
      have ew : ch.w ({ h with fmaps := fun j => if j = fid then some [x] else h.fmaps j } : HStore ℝ).view = ch.w h.view := ch.w_congr rfl
      simp only [Net.sem, Net.w, Sem.skip, ew]
    · exact Nat.lt_succ_self _
    · exact hle.trans (Nat.le_succ _)
    · simp only [Net.alias]; exact hle
    · intro c hc hcx
      show (if c = h'.next then _ else _) = _
      rw [if_neg (by omega)]
      exact hr.mem.keep c hc hcx
    · show (if x.cell = h'.next then _ else _) = _
      rw [if_neg (by omega), hr.mem.xin, hsafe.1]
      simp only [Net.overwrites]
    · exact hr.step.param
    · exact hr.step.hooks
    · exact fun i => (hr.step.some i).trans (g0.some i)
    · simp only [Net.ids] at hi
      exact (g0.trans hr.step).frame i fun hh => hi (List.mem_cons_of_mem _ hh)
    · exact hle.trans (Nat.le_succ _)
    · intro cor mem st hm hst
      have hL : Later false v h' mem := by
        have key : ∀ c, c < h'.next → mem c = h'.mem c := fun c hc => by
          rw [hm.same c (by show c < h'.next + 1; omega) (by show c ≠ h'.next; omega)]
          show (if c = h'.next then _ else _) = _
          rw [if_neg (by omega)]
        exact ⟨fun c hc _ => key c hc, key _ hvl⟩
      have hst' : Sees (fid :: ch.ids) h' mem st := ⟨hst.param, fun i hi => hst.at' i (by simp only [Net.ids]; exact List.mem_cons_of_mem _ hi)⟩
      have : (seqMdl fid (ch.ipMchain ip false)).cache B X st := by
        obtain ⟨E, hE, hl, hc⟩ := hr.list
        obtain ⟨h1, h2⟩ := hc false mem st hL (hst'.mono fun i hi => List.mem_cons_of_mem _ hi)
        simp only [hsafe.1, rl_false] at h1 h2
        refine ⟨⟨(x :: E).map (Ref.get mem), ?_, ?_⟩, h1⟩
        · rw [(hst'.at' fid (by simp)).1, hE]; rfl
        · rw [(Chain.ip_sim ip ch false).w, Chain.mchain_w, ch.w_congr (st := ({ h with fmaps := fun j => if j = fid then some [x] else h.fmaps j } : HStore ℝ).view)
            (st' := st) (hst'.param.trans hr.step.param)]
          exact h2
      simp only [Net.overwrites, rl_false]
      cases cor <;> exact this
theorem Chain.hrun (ip : Nat → Bool) : {s s' : List Nat} → {n k p l : Nat} → (c : Chain s n s' k p l) → {q B : Nat} → {X : Fin B → Fin n → ℝ} → {x : Ref} →
    {L : List Ref} → {h : HStore ℝ} → (q :: c.ids).Nodup → c.SkipsSafe ip → c.Wired q h.view → 0 < B → IsBatch (x.get h.mem) B s n X → x.cell < h.next →
    h.fmaps q = some L → ∃ v h', HMod.run (c.hmods ip) x h = (.ok v, h') ∧ HRanC ip q c B X L x v h h'
  | _, _, _, _, _, _, .nil s n hs hn, q, B, X, x, L, h, _, _, _, _, hx, hlt, hL => by
    refine ⟨x, h, by simp only [Chain.hmods, HMod.run]; rfl, ?_, ⟨hlt, le_rfl, ?_, fun _ _ _ => rfl, ?_⟩, .refl, [], by simpa using hL, rfl, ?_⟩
    · simp only [Chain.sem]; exact hx
    · simp only [Chain.alias, if_true]
    · simp only [Chain.overwrites]; rfl
    · intro cor mem st hm hst
      simp only [Chain.overwrites, Chain.ipMchain, MChain.kids, MChain.listOk]
      exact ⟨trivial, x.get mem, rfl, hx.rl cor rfl hm.out⟩
  | _, _, _, _, _, _, @Chain.snoc s s' s'' n k j p p' l c m, q, B, X, x, L, h, hnd, hsafe, hw, hB, hx, hlt, hL => by
    simp only [Chain.ids] at hnd
    simp only [Chain.SkipsSafe] at hsafe
    simp only [Chain.Wired] at hw
    have hndc : (q :: c.ids).Nodup := hnd.sublist (List.Sublist.cons_cons _ (List.sublist_append_left _ _))
    have hndm : m.ids.Nodup := (List.nodup_append.1 (List.nodup_cons.1 hnd).2).2.1
    have hqm : q ∉ m.ids := fun hh => (List.nodup_cons.1 hnd).1 (List.mem_append_right _ hh)
    have hqc : q ∉ c.ids := fun hh => (List.nodup_cons.1 hnd).1 (List.mem_append_left _ hh)
    have hdis : ∀ i ∈ c.ids, i ∉ m.ids := fun i hi hh => (List.nodup_append.1 (List.nodup_cons.1 hnd).2).2.2 i hi i hh rfl
    obtain ⟨v1, h1, e1, r1⟩ := Chain.hrun ip c hndc hsafe.1 hw.1 hB hx hlt hL
    have hwm : m.Wired h1.view := (m.mdl_wired _).1 ((m.good hndm).wired_of r1.step.wiring ((m.mdl_wired _).2 hw.2.1))
    obtain ⟨v2, h2, e2, r2⟩ := Net.hrun ip m hndm hsafe.2 hwm hB r1.out r1.mem.lt
    obtain ⟨E, hE, hEl, hc⟩ := r1.list
    have hE2 : h2.fmaps q = some (L ++ E) := by rw [(r2.step.frame q hqm).1, hE]
    have hhk : h2.hooks (m.hmod ip).id = [q] := by
      rw [Net.hmod_id, r2.step.hooks, r1.step.hooks]
      exact hw.2.2
    have e3 := HMod.call_one e2 hhk hE2
    have hwc : m.w h1.view = m.w h.view := m.w_congr r1.step.param
    have hout : IsBatch (v2.get h2.mem) B s'' j fun b => (Chain.snoc c m).sem.f ((Chain.snoc c m).w h.view) (X b) := by
      refine r2.out.congr fun b i => ?_
      simp only [Chain.sem, Chain.w, Sem.comp, MChain.wl_append, MChain.wr_append, hwc]
    refine ⟨v2, { h2 with fmaps := fun j => if j = q then some (L ++ E ++ [v2]) else h2.fmaps j }, ?_, hout, ?_, ?_, E ++ [v2], ?_, by simp [hEl], ?_⟩
    · simp only [Chain.hmods]
      rw [HMod.run_append e1]
      simp only [HMod.run, bind, HProg.bind, e3]
      rfl
    · have := r1.mem.trans r2.mem hlt
      simp only [Chain.alias, Chain.overwrites]
      rw [Chain.ow_al]
      exact ⟨this.lt, this.next, this.al, this.keep, this.xin⟩
    · simp only [Chain.ids]
      refine (r1.step.mono ?_).trans ((r2.step.append hE2).mono ?_)
      · intro i hi; simp only [List.mem_cons, List.mem_append] at hi ⊢; tauto
      · intro i hi; simp only [List.mem_cons, List.mem_append] at hi ⊢; tauto
    · show (if q = q then _ else _) = _
      simp
    · intro cor mem st hm hst
      simp only [Chain.ids] at hst
      have hm2 : Later cor v2 h2 mem := ⟨hm.same, hm.out⟩
      have hm1 := r2.mem.later r1.mem.lt hm2
      rw [← Net.ow_al] at hm1
      have hne : ∀ i ∈ c.ids ++ m.ids, i ≠ q := by
        intro i hi hh; subst hh; exact (List.nodup_cons.1 hnd).1 hi
      have hst2 : Sees (c.ids ++ m.ids) h2 mem st := ⟨hst.param, fun i hi => by
        rw [(hst.at' i hi).1, (hst.at' i hi).2]
        refine ⟨?_, rfl⟩
        show Option.map _ (if i = q then _ else _) = _
        rw [if_neg (hne i hi)]⟩
      have hstm : Sees m.ids h2 mem st := hst2.mono fun i hi => List.mem_append_right _ hi
      have hstc : Sees c.ids h1 mem st := (hst2.mono fun i hi => List.mem_append_left _ hi).step r2.step hdis
      obtain ⟨hk, hl⟩ := hc _ mem st hm1 hstc
      have hcache := r2.cache cor mem st hm2 hstm
      have hcor := Chain.ip_cor ip c (m.overwrites ip cor) hsafe.1
      have hpar : st.param = h.view.param := hst2.param.trans (r2.step.param.trans r1.step.param)
      have hcor2 := Chain.ip_cor ip (.snoc c m) cor (by simp only [Chain.SkipsSafe]; exact hsafe)
      have hf2 := hcor2.f ((Chain.snoc c m).w h.view)
      simp only [Chain.ipMchain, MChain.S, Chain.overwrites] at hf2
      simp only [Chain.overwrites, Chain.ipMchain, MChain.kids, MChain.listOk]
      refine ⟨⟨hk, ?_⟩, ?_, ?_⟩
      · convert hcache using 2
        funext b
        simp only [MChain.Y]
        rw [(Chain.ip_sim ip c _).w, Chain.mchain_w, c.w_congr hpar, hcor.f]
      · have : wl ((Chain.snoc c m).w h.view) = c.w h.view := by simp only [Chain.w, MChain.wl_append]
        rw [this, ← List.cons_append, List.map_append]
        exact MChain.listOk_append hl
      · refine ⟨v2.get mem, ?_, ?_⟩
        · rw [← List.cons_append, List.map_append, List.getElem?_append_right (by simp [hEl])]
          simp [hEl]
        · refine (hout.rl cor (u := v2.get mem) rfl hm.out).congr fun b i => ?_
          rw [hf2]
end

end NNJ
