import Verif.Proofs.SeqBack

/-! `jmjTp` loops of Sequential. -/

namespace NNJ
open Tensor Matrix
namespace MChain

variable {sI sO : List Nat} {n k p l : Nat}

/-- only caches of the children changed, and they are still those of a forward pass -/
structure Kept (c : MChain sI n sO k p l) (B : Nat) (X : Fin B → Fin n → ℝ) (s s' : Store ℝ) : Prop where
  step : Step c.ids s s'
  kids : c.kids B X s'

theorem Kept.snoc {sK : List Nat} {j r q B : Nat} {c : MChain sI n sO k p l} {M : Mdl sO k sK j r} {X : Fin B → Fin n → ℝ} {s s' s'' : Store ℝ}
    (hg : c.AllGood) (hnd : (q :: (c.ids ++ M.ids)).Nodup) (h : Kept c B X s s') (hs : Step M.ids s' s'')
    (hc : M.cache B (c.Y s X) s'') : Kept (MChain.snoc c M) B X s s'' := by
  have hst : Step (c.ids ++ M.ids) s s'' :=
    (h.step.mono fun i hi => List.mem_append_left _ hi).trans (hs.mono fun i hi => List.mem_append_right _ hi)
  refine ⟨hst, c.kids_frame hg hs.param (fun i hi => hs.frame i fun hh => ?_) h.kids, ?_⟩
  · simp only [List.nodup_cons, List.nodup_append, List.mem_append] at hnd
    exact hnd.2.2.2 i hi i hh rfl
  · rw [c.Y_of hg hst.param]; exact hc

theorem fmap_frame {q i : Nat} {s s' : Store ℝ} {t : Tensor ℝ} (hq : s'.fmaps q = s.fmaps q) (h : Sequential.fmap q i s = (.ok t, s)) :
    Sequential.fmap q i s' = (.ok t, s') := by
  simp only [Sequential.fmap, hq] at h ⊢
  cases hs : s.fmaps q with
  | none => simp [hs] at h
  | some L =>
    cases hL : L[i]? with
    | none => simp [hs, hL] at h
    | some t' =>
      simp only [hs, hL, Prod.mk.injEq, Except.ok.injEq, and_true] at h ⊢
      exact h

/-- the state reached after the layers of `c` still serves the next layer -/
theorem Last.kept {sK : List Nat} {j r q B : Nat} {c : MChain sI n sO k p l} {M : Mdl sO k sK j r} {X : Fin B → Fin n → ℝ} {s s' : Store ℝ}
    {x v : Tensor ℝ} (hg : c.AllGood) (hM : Good M) (hnd : (q :: (c.ids ++ M.ids)).Nodup) (h : Last q c M B X s x v) (hk : Kept c B X s s') :
    Last q c M B X s' x v := by
  simp only [List.nodup_cons, List.nodup_append, List.mem_append] at hnd
  have hq : s'.fmaps q = s.fmaps q := (hk.step.frame q fun h => hnd.1 (Or.inl h)).1
  have eY : c.Y s' X = c.Y s X := c.Y_of hg hk.step.param X
  refine ⟨⟨c.wired_of hg hk.step.wiring h.env.wired, hk.kids, ?_⟩, hM.wired_of hk.step.wiring h.wired, ?_, fmap_frame hq h.x_eq, fmap_frame hq h.v_eq, ?_, ?_⟩
  · rw [hq, c.w_of hg hk.step.param]; exact h.env.list
  · rw [eY]
    refine hM.cache_frame hk.step.param (fun i hi => hk.step.frame i fun hh => ?_) h.cache
    exact hnd.2.2.2 i hh i hi rfl
  · rw [eY]; exact h.x_ok
  · have := h.v_ok
    simp only [Mdl.VOk, eY, hM.Y_of hk.step.param] at this ⊢
    exact this

section loops
variable {q B : Nat} {X : Fin B → Fin n → ℝ} {s : Store ℝ} {c : MChain sI n sO k p l} {β : Type}

theorem MetricOut.toArg {t : Tensor ℝ} {k : Nat} {Z : Fin B → Matrix (Fin k) (Fin k) ℝ} (h : MetricOut false t B k Z) : MetricArg false t B k Z := h

/-- read the feature maps around the last layer -/
theorem run_fmaps {sK : List Nat} {j r : Nat} {c : MChain sI n sO k p l} {M : Mdl sO k sK j r}
    {x v : Tensor ℝ} (h : Last q c M B X s x v) {f : Tensor ℝ → Tensor ℝ → Prog ℝ β} {Q : β → Store ℝ → Prop} (hf : Run (f x v) s Q) :
    Run (do
      let x ← Sequential.fmap q l
      let v ← Sequential.fmap q (l + 1)
      f x v) s Q := by
  obtain ⟨b, s', hb, hQ⟩ := hf
  exact ⟨b, s', by rw [Prog.bind_ok h.x_eq, Prog.bind_ok h.v_eq, hb], hQ⟩

theorem jmjTpInput_loop {N : Nat} {fd td : Bool} (hg : c.AllGood) (hf : c.fwdI) (hB : 0 < B) (hnd : (q :: c.ids).Nodup) (he : Env q c B X s) (hN : l ≤ N)
    {A : Tensor ℝ} {Z : Fin B → Matrix (Fin n) (Fin n) ℝ} (hA : MetricArg fd A B n Z) (rest : List (Mod ℝ)) {Q : PyVal ℝ → Store ℝ → Prop}
    (hk : ∀ t s', Kept c B X s s' →
      (if l = 0 then t = A else MetricOut (if l = N then td else false) t B k fun b => c.J s X b * Z b * (c.J s X b)ᵀ) →
      Run (Sequential.jmjTpInput q N fd td false rest l (.tensor t)) s' Q) :
    Run (Sequential.jmjTpInput q N fd td false (c.mods ++ rest) 0 (.tensor A)) s Q := by
  induction c generalizing rest with
  | nil => exact hk A s ⟨Step.refl, trivial⟩ (by simp)
  | @snoc _ _ _ _ _ _ r l c M ih =>
    obtain ⟨x, v, h⟩ := he.last
    rw [mods_snoc_append]
    have hnd' : (q :: (c.ids ++ M.ids)).Nodup := hnd
    have hndc : (q :: c.ids).Nodup := by
      simp only [List.nodup_cons, List.nodup_append, List.mem_append] at hnd' ⊢; tauto
    refine ih hg.1 hf.1 hndc h.env (by omega) hA (M.m :: rest) fun t s' hkept ht => ?_
    replace h := h.kept hg.1 hg.2 hnd' hkept
    have eN : (if l = N - 1 then td else false) = if l + 1 = N then td else false := by
      have : l = N - 1 ↔ l + 1 = N := by omega
      simp only [this]
    refine run_fmaps h ?_
    rw [eN]
    have ht' : MetricArg (if l = 0 then fd else false) t B _ fun b => c.J s X b * Z b * (c.J s X b)ᵀ := by
      cases c with
      | nil =>
        simp only [if_true] at ht ⊢
        subst ht
        simpa [J, S, Sem.id] using hA
      | @snoc _ _ _ _ _ _ _ l c' M' =>
        have : ¬ l + 1 = N := by omega
        simp only [Nat.succ_ne_zero, if_false, this] at ht ⊢
        exact ht
    refine ((hg.2.jmjI hf.2 _ _ h.wired hB h.x_ok ht').1 v h.v_ok h.cache).bind fun o s'' ⟨ho, hst, hc⟩ => ?_
    cases o with
    | none => exact ho.elim
    | some t' =>
      rw [c.Y_of hg.1 hkept.step.param] at hc
      refine hk t' s'' (hkept.snoc hg.1 hnd' hst hc) ?_
      simp only [Nat.succ_ne_zero, if_false]
      have ho' : MetricOut (if l + 1 = N then td else false) t' B _ _ := ho
      simp only [hg.2.J_of hkept.step.param, c.Y_of hg.1 hkept.step.param] at ho'
      simp only [J_snoc, transpose_mul]
      simpa only [Matrix.mul_assoc] using ho'

theorem jmjTpInput_db {N : Nat} (hg : c.AllGood) (hf : c.fwdI) (hB : 0 < B) (hnd : (q :: c.ids).Nodup) (he : Env q c B X s)
    {A : Tensor ℝ} {d : Fin B → Fin n → ℝ} (hA : IsVec A B n d) (rest : List (Mod ℝ)) {Q : PyVal ℝ → Store ℝ → Prop}
    (hk : ∀ t s', Kept c B X s s' → IsVec t B k (fun b => c.Q s X b *ᵥ d b) →
      Run (Sequential.jmjTpInput q N true true true rest l (.tensor t)) s' Q) :
    Run (Sequential.jmjTpInput q N true true true (c.mods ++ rest) 0 (.tensor A)) s Q := by
  induction c generalizing rest with
  | nil => exact hk A s ⟨Step.refl, trivial⟩ (hA.congr fun b i => by simp [MChain.Q, S, Sem.id])
  | @snoc _ _ _ _ _ _ r l c M ih =>
    obtain ⟨x, v, h⟩ := he.last
    rw [mods_snoc_append]
    have hnd' : (q :: (c.ids ++ M.ids)).Nodup := hnd
    have hndc : (q :: c.ids).Nodup := by
      simp only [List.nodup_cons, List.nodup_append, List.mem_append] at hnd' ⊢; tauto
    refine ih hg.1 hf.1 hndc h.env hA (M.m :: rest) fun t s' hkept ht => ?_
    replace h := h.kept hg.1 hg.2 hnd' hkept
    refine run_fmaps h ?_
    simp only [ite_self]
    refine ((hg.2.jmjIdb hf.2 h.wired hB h.x_ok ht).1 v h.v_ok h.cache).bind fun o s'' ⟨ho, hst, hc⟩ => ?_
    cases o with
    | none => exact ho.elim
    | some t' =>
      rw [c.Y_of hg.1 hkept.step.param] at hc
      refine hk t' s'' (hkept.snoc hg.1 hnd' hst hc) ?_
      have ho' : IsVec t' B _ _ := ho
      simp only [hg.2.Q_of hkept.step.param, c.Y_of hg.1 hkept.step.param] at ho'
      exact ho'.congr fun b i => by rw [Q_snoc, ← mulVec_mulVec]

/-! ### weights -/

/-- one tensor for every child with parameters -/
def pieces (fd : Bool) (vs : List (PyVal ℝ)) : {sI sO : List Nat} → {n k p l : Nat} → MChain sI n sO k p l → (B : Nat) → (Fin B → Matrix (Fin p) (Fin p) ℝ) → Prop
  | _, _, _, _, _, _, .nil _ _, _, _ => True
  | _, _, _, _, _, _, @MChain.snoc _ _ _ _ _ _ _ q _ c _, B, Z =>
    pieces fd vs c B (fun b => ulB (Z b)) ∧ (q ≠ 0 → ∃ t, vs[c.npar]? = some (.tensor t) ∧ MetricArg fd t B q fun b => lrB (Z b))

theorem pieces_append {vs vs' : List (PyVal ℝ)} {Z : Fin B → Matrix (Fin p) (Fin p) ℝ} {fd : Bool}
    (h : pieces fd vs c B Z) : pieces fd (vs ++ vs') c B Z := by
  induction c with
  | nil => trivial
  | snoc c M ih =>
    refine ⟨ih h.1, fun hq => ?_⟩
    obtain ⟨v, hv, ha⟩ := h.2 hq
    obtain ⟨hi, _⟩ := List.getElem?_eq_some_iff.1 hv
    exact ⟨v, by rw [List.getElem?_append_left hi, hv], ha⟩

theorem args_of_pieces {vs : List (PyVal ℝ)} {Z : Fin B → Matrix (Fin p) (Fin p) ℝ} {fd : Bool} (hg : c.AllGood)
    (h : pieces fd vs c B Z) : args fd vs c B Z := by
  induction c with
  | nil => trivial
  | snoc c M ih =>
    refine ⟨ih hg.1 h.1, fun hq => ?_⟩
    obtain ⟨v, hv, ha⟩ := h.2 hq
    exact ⟨_, hv, hg.2.arg_of_metric ha⟩

theorem slice_metric {fd : Bool} {t : Tensor ℝ} {P lo m : Nat} {Z : Fin B → Matrix (Fin P) (Fin P) ℝ} (h : MetricArg fd t B P Z) (hl : lo + m ≤ P) :
    Ret (do
      let blk ← t.slice 1 lo (lo + m)
      if fd then .ok blk else blk.slice 2 lo (lo + m)) fun r => MetricArg fd r B m fun b i j => Z b ⟨lo + i, by omega⟩ ⟨lo + j, by omega⟩ := by
  cases fd
  · refine (slice_rows h hl).bind fun r hr => ?_
    exact slice_cols hr hl
  · obtain ⟨d, hd, hZ⟩ := h
    refine (slice_vec hd hl).bind fun r hr => Ret.ok ⟨_, hr, fun b => ?_⟩
    ext i j
    simp [hZ, diagonal_apply, Fin.ext_iff]

theorem splitBlocks_ret {P : Nat} {fd : Bool} {t : Tensor ℝ} {Z : Fin B → Matrix (Fin P) (Fin P) ℝ} (ht : MetricArg fd t B P Z) (hg : c.AllGood)
    (hP : p ≤ P) (rest : List (Mod ℝ)) {R : List (PyVal ℝ) × Nat → Prop} (hr : Ret (Sequential.splitBlocks t fd rest p) R) :
    Ret (Sequential.splitBlocks t fd (c.mods ++ rest) 0) fun v =>
      ∃ vs1 vs2, v.1 = vs1 ++ vs2 ∧ vs1.length = c.npar ∧
        pieces fd vs1 c B (fun b i j => Z b (Fin.castLE hP i) (Fin.castLE hP j)) ∧ R (vs2, v.2) := by
  induction c generalizing rest R with
  | nil => exact hr.mono fun v hv => ⟨[], v.1, rfl, rfl, trivial, hv⟩
  | @snoc _ _ _ _ _ p r l c M ih =>
    rw [mods_snoc_append]
    have hp : p ≤ P := by omega
    have key : Ret (Sequential.splitBlocks t fd (M.m :: rest) p) fun v =>
        ∃ o vs2, v.1 = o ++ vs2 ∧ o.length = (if r = 0 then 0 else 1) ∧
          (r ≠ 0 → ∃ t, o = [.tensor t] ∧ MetricArg fd t B r fun b => lrB fun i j => Z b (Fin.castLE hP i) (Fin.castLE hP j)) ∧ R (vs2, v.2) := by
      simp only [Sequential.splitBlocks, hg.2.nParams]
      by_cases h0 : r = 0
      · subst h0
        simp only [if_true]
        exact hr.mono fun v hv => ⟨[], v.1, rfl, rfl, fun h => absurd rfl h, hv⟩
      · simp only [h0, if_false]
        obtain ⟨b, hb, hbm⟩ := slice_metric (m := r) (lo := p) ht hP
        obtain ⟨v, hv, hR⟩ := hr
        refine ⟨(.tensor b :: v.1, v.2), ?_, [.tensor b], v.1, rfl, rfl, fun _ => ⟨b, rfl, hbm⟩, hR⟩
        rw [hv]
        cases h1 : t.slice 1 p (p + r) with
        | error e => rw [h1] at hb; simp at hb
        | ok a =>
          rw [h1] at hb
          simp only [Res.bind_ok] at hb ⊢
          cases fd
          · simp only [Bool.false_eq_true, if_false] at hb ⊢
            rw [hb]; rfl
          · simp only [if_true] at hb ⊢
            cases hb; rfl
    refine (ih hg.1 hp (M.m :: rest) key).mono fun v ⟨vs1, vs2, hv, hlen, hpc, o, vs3, hv2, hol, ho, hR⟩ => ?_
    refine ⟨vs1 ++ o, vs3, ?_, ?_, ⟨pieces_append hpc, fun h0 => ?_⟩, hR⟩
    · rw [hv]; simp only at hv2; rw [hv2]; simp
    · simp [hlen, hol, npar]
    · obtain ⟨t, rfl, ht⟩ := ho h0
      exact ⟨t, by rw [← hlen]; simp, ht⟩

theorem args_castLE {vs : List (PyVal ℝ)} {Z : Fin B → Matrix (Fin p) (Fin p) ℝ} {fd : Bool} :
    pieces fd vs c B (fun b i j => Z b (Fin.castLE le_rfl i) (Fin.castLE le_rfl j)) ↔ pieces fd vs c B Z := Iff.rfl

theorem accum_metric {p r m : Nat} {td : Bool} {a t : Option (Tensor ℝ)} {Z Y : Fin B → Matrix (Fin m) (Fin m) ℝ}
    (ha : OptW p (fun t => MetricOut td t B m Z) a)
    (ht : OptW r (fun t => MetricOut td t B m Y) t) (h0 : p = 0 → Z = 0) (h0' : r = 0 → Y = 0) :
    Ret (Sequential.accum a t) (OptW (p + r) fun t => MetricOut td t B m fun b => Z b + Y b) := by
  cases td
  · exact accum_mat ha ht h0 h0'
  · refine (accum_vec (Z := fun b => diag (Z b)) (Y := fun b => diag (Y b)) ha ht ?_ ?_).mono fun o ho => OptW.mono ho fun t ht => ht
    · intro h; funext b; rw [h0 h]; rfl
    · intro h; funext b; rw [h0' h]; rfl

theorem sandwich_zero_dim {m p : Nat} (h : p = 0) (A : Matrix (Fin m) (Fin p) ℝ) (Z : Matrix (Fin p) (Fin p) ℝ) : A * Z * Aᵀ = 0 :=
  mul_zero_dim h _ _

theorem listGet_of {vs : List (PyVal ℝ)} {i : Nat} {v : PyVal ℝ} (h : vs[i]? = some v) : Sequential.listGet vs i s = (.ok v, s) := by
  simp only [Sequential.listGet, h]

theorem jmjTpWeight_loop {N : Nat} {fd td : Bool} (hg : c.AllGood) (hf : c.pushW) (hB : 0 < B) (hnd : (q :: c.ids).Nodup) (he : Env q c B X s) (hN : l ≤ N)
    {vs : List (PyVal ℝ)} {Z : Fin B → Matrix (Fin p) (Fin p) ℝ} (hA : args fd vs c B Z) (rest : List (Mod ℝ)) {Q : Option (Tensor ℝ) → Store ℝ → Prop}
    (hk : ∀ t s', Kept c B X s s' →
      OptW p (fun t => MetricOut (if l = N then td else false) t B k fun b => c.JW s X b * c.S.mask (Z b) * (c.JW s X b)ᵀ) t →
      Run (Sequential.jmjTpWeight q N fd td false vs rest l c.npar t) s' Q) :
    Run (Sequential.jmjTpWeight q N fd td false vs (c.mods ++ rest) 0 0 none) s Q := by
  induction c generalizing rest with
  | nil => exact hk none s ⟨Step.refl, trivial⟩ (by simp [OptW])
  | @snoc _ _ _ _ _ p r l c M ih =>
    obtain ⟨x, v, h⟩ := he.last
    rw [mods_snoc_append]
    have hnd' : (q :: (c.ids ++ M.ids)).Nodup := hnd
    have hndc : (q :: c.ids).Nodup := by
      simp only [List.nodup_cons, List.nodup_append, List.mem_append] at hnd' ⊢; tauto
    refine ih hg.1 hf.1 hndc h.env (by omega) hA.1 (M.m :: rest) fun acc s' hkept hacc => ?_
    replace h := h.kept hg.1 hg.2 hnd' hkept
    have eN : (if l = N - 1 then td else false) = if l + 1 = N then td else false := by
      have : l = N - 1 ↔ l + 1 = N := by omega
      simp only [this]
    have hlN : ¬ l = N := by omega
    simp only [hlN, if_false] at hacc
    simp only [Sequential.jmjTpWeight]
    rw [eN]
    have hthr : Run (Sequential.through acc fun a => do
        let x ← Sequential.fmap q l
        let v ← Sequential.fmap q (l + 1)
        M.m.jmjTp x (some v) (.tensor a) .input false (if l + 1 = N then td else false) false) s' fun o s'' =>
        OptW p (fun t => MetricOut (if l + 1 = N then td else false) t B _
          fun b => M.J s (c.Y s X) b * (c.JW s X b * c.S.mask (ulB (Z b)) * (c.JW s X b)ᵀ) * (M.J s (c.Y s X) b)ᵀ) o ∧
        Step M.ids s' s'' ∧ M.cache B (c.Y s X) s'' := by
      unfold OptW at hacc ⊢
      split_ifs at hacc ⊢ with h0
      all_goals try subst hacc
      all_goals try exact Run.pure ⟨rfl, Step.refl, by have := h.cache; rwa [c.Y_of hg.1 hkept.step.param] at this⟩
      all_goals
        cases acc with
        | none => exact hacc.elim
        | some a =>
          refine run_fmaps h (((hg.2.jmjI (hf.2.1.resolve_left (by assumption)) false _ h.wired hB h.x_ok hacc).1 v h.v_ok h.cache).mono fun o s'' ⟨ho, hst, hc⟩ => ⟨?_, hst, ?_⟩)
          · refine IsSome.mono ho fun t ht => ?_
            simpa only [hg.2.J_of hkept.step.param, c.Y_of hg.1 hkept.step.param] using ht
          · rwa [c.Y_of hg.1 hkept.step.param] at hc
    refine hthr.bind fun acc' s2 ⟨hacc', hst, hc⟩ => ?_
    have hk2 : Kept (MChain.snoc c M) B X s s2 := hkept.snoc hg.1 hnd' hst hc
    have eq : ∀ b, (snoc c M).JW s X b * (snoc c M).S.mask (Z b) * ((snoc c M).JW s X b)ᵀ =
        M.J s (c.Y s X) b * (c.JW s X b * c.S.mask (ulB (Z b)) * (c.JW s X b)ᵀ) * (M.J s (c.Y s X) b)ᵀ +
        M.JW s (c.Y s X) b * M.S.mask (lrB (Z b)) * (M.JW s (c.Y s X) b)ᵀ := by
      intro b
      rw [JW_snoc]
      show hcat _ _ * (c.S.comp M.S).mask (Z b) * _ = _
      rw [hcat_mask, transpose_mul]
      simp only [Matrix.mul_assoc]
    rw [hg.2.nParams]
    by_cases h0 : r = 0
    · simp only [h0, if_true]
      have hnp : (snoc c M).npar = c.npar := by simp [npar, h0]
      rw [← hnp]
      refine hk acc' s2 hk2 ?_
      subst h0
      refine OptW.mono (p := p) hacc' fun t ht => ?_
      simp only [eq, sandwich_zero_dim rfl (M.JW s (c.Y s X) _), add_zero]
      exact ht
    · simp only [h0, if_false]
      obtain ⟨w, hwget, hwarg⟩ := hA.2 h0
      -- the caches of the layer may have changed, the feature maps have not
      have h2 : Sequential.fmap q l s2 = (.ok x, s2) ∧ Sequential.fmap q (l + 1) s2 = (.ok v, s2) := by
        have hqM : q ∉ M.ids := by simp only [List.nodup_cons, List.mem_append] at hnd'; tauto
        have hq : s2.fmaps q = s'.fmaps q := (hst.frame q hqM).1
        exact ⟨fmap_frame hq h.x_eq, fmap_frame hq h.v_eq⟩
      have hpar2 : s2.param = s.param := hst.param.trans hkept.step.param
      have hx2 := h.x_ok
      rw [c.Y_of hg.1 hkept.step.param] at hx2
      have hv2 : M.VOk s2 (c.Y s X) v := by
        have := h.v_ok
        simp only [Mdl.VOk, c.Y_of hg.1 hkept.step.param, hg.2.Y_of hkept.step.param] at this
        simpa only [Mdl.VOk, hg.2.Y_of hpar2] using this
      have hM2 := (hg.2.jmjW (hf.2.2.resolve_left h0) (Nat.pos_of_ne_zero h0) fd (if l + 1 = N then td else false) (hg.2.wired_of hst.wiring h.wired) hB hx2 hwarg).1 v hv2 hc
      obtain ⟨fl, s3, hfl, hflm, hst3, hc3⟩ := hM2
      have hsum := accum_metric (p := p) (r := r) (td := if l + 1 = N then td else false) (a := acc') (t := fl)
        (Y := fun b => M.JW s (c.Y s X) b * M.S.mask (lrB (Z b)) * (M.JW s (c.Y s X) b)ᵀ) hacc'
        (by simp only [OptW, h0, if_false]; simpa only [hg.2.JW_of hpar2] using hflm)
        (by intro hp; funext b; rw [sandwich_zero_dim hp (c.JW s X b), Matrix.mul_zero, Matrix.zero_mul]; rfl)
        (fun h => absurd h h0)
      obtain ⟨acc3, hacc3, hm3⟩ := hsum
      have hk3 : Kept (MChain.snoc c M) B X s s3 := hkept.snoc hg.1 hnd' (hst.trans hst3) hc3
      have hnp : (snoc c M).npar = c.npar + 1 := by simp [npar, h0]
      obtain ⟨res, s4, hres, hQ⟩ := hk acc3 s3 hk3 (by simpa only [eq] using hm3)
      refine ⟨res, s4, ?_, hQ⟩
      rw [Prog.bind_ok h2.1, Prog.bind_ok h2.2, Prog.bind_ok (listGet_of hwget), Prog.bind_ok hfl, hacc3, ← hres, hnp]
      rfl

theorem jmjTpWeight_db {N : Nat} (hg : c.AllGood) (hf : c.pushW) (hB : 0 < B) (hnd : (q :: c.ids).Nodup) (he : Env q c B X s)
    {vs : List (PyVal ℝ)} {d : Fin B → Fin p → ℝ} (hA : pieces true vs c B fun b => diagonal (d b)) (rest : List (Mod ℝ))
    {Q : Option (Tensor ℝ) → Store ℝ → Prop}
    (hk : ∀ t s', Kept c B X s s' → OptW p (fun t => IsVec t B k fun b => c.QW s X b *ᵥ d b) t →
      Run (Sequential.jmjTpWeight q N true true true vs rest l c.npar t) s' Q) :
    Run (Sequential.jmjTpWeight q N true true true vs (c.mods ++ rest) 0 0 none) s Q := by
  induction c generalizing rest with
  | nil => exact hk none s ⟨Step.refl, trivial⟩ (by simp [OptW])
  | @snoc _ _ _ _ _ p r l c M ih =>
    obtain ⟨x, v, h⟩ := he.last
    rw [mods_snoc_append]
    have hnd' : (q :: (c.ids ++ M.ids)).Nodup := hnd
    have hndc : (q :: c.ids).Nodup := by
      simp only [List.nodup_cons, List.nodup_append, List.mem_append] at hnd' ⊢; tauto
    have hA1 := hA.1
    simp only [ulB_diagonal] at hA1
    refine ih hg.1 hf.1 hndc h.env hA1 (M.m :: rest) fun acc s' hkept hacc => ?_
    replace h := h.kept hg.1 hg.2 hnd' hkept
    simp only [Sequential.jmjTpWeight, ite_self]
    have hthr : Run (Sequential.through acc fun a => do
        let x ← Sequential.fmap q l
        let v ← Sequential.fmap q (l + 1)
        M.m.jmjTp x (some v) (.tensor a) .input true true true) s' fun o s'' =>
        OptW p (fun t => IsVec t B _ fun b => M.Q s (c.Y s X) b *ᵥ (c.QW s X b *ᵥ wl (d b))) o ∧
        Step M.ids s' s'' ∧ M.cache B (c.Y s X) s'' := by
      unfold OptW at hacc ⊢
      split_ifs at hacc ⊢ with h0
      · subst hacc
        exact Run.pure ⟨rfl, Step.refl, by have := h.cache; rwa [c.Y_of hg.1 hkept.step.param] at this⟩
      · cases acc with
        | none => exact hacc.elim
        | some a =>
          refine run_fmaps h (((hg.2.jmjIdb (hf.2.1.resolve_left h0) h.wired hB h.x_ok hacc).1 v h.v_ok h.cache).mono fun o s'' ⟨ho, hst, hc⟩ => ⟨?_, hst, ?_⟩)
          · refine IsSome.mono ho fun t ht => ?_
            simpa only [hg.2.Q_of hkept.step.param, c.Y_of hg.1 hkept.step.param] using ht
          · rwa [c.Y_of hg.1 hkept.step.param] at hc
    refine hthr.bind fun acc' s2 ⟨hacc', hst, hc⟩ => ?_
    have hk2 : Kept (MChain.snoc c M) B X s s2 := hkept.snoc hg.1 hnd' hst hc
    have eq : ∀ b, (snoc c M).QW s X b *ᵥ d b =
        M.Q s (c.Y s X) b *ᵥ (c.QW s X b *ᵥ wl (d b)) + M.QW s (c.Y s X) b *ᵥ wr (d b) := by
      intro b
      rw [QW_snoc, hcat_mulVec, mulVec_mulVec]
    rw [hg.2.nParams]
    by_cases h0 : r = 0
    · simp only [h0, if_true]
      have hnp : (snoc c M).npar = c.npar := by simp [npar, h0]
      rw [← hnp]
      refine hk acc' s2 hk2 ?_
      subst h0
      refine OptW.mono (p := p) hacc' fun t ht => ?_
      simp only [eq, mulVec_zero_dim rfl (M.QW s (c.Y s X) _), add_zero]
      exact ht
    · simp only [h0, if_false]
      obtain ⟨w, hwget, hwarg⟩ := hA.2 h0
      simp only [lrB_diagonal] at hwarg
      have hwv : IsVec w B r fun b => wr (d b) := by
        obtain ⟨d', hd', e⟩ := hwarg
        exact hd'.congr fun b i => by rw [diagonal_injective (e b)]
      have h2 : Sequential.fmap q l s2 = (.ok x, s2) ∧ Sequential.fmap q (l + 1) s2 = (.ok v, s2) := by
        have hqM : q ∉ M.ids := by simp only [List.nodup_cons, List.mem_append] at hnd'; tauto
        have hq : s2.fmaps q = s'.fmaps q := (hst.frame q hqM).1
        exact ⟨fmap_frame hq h.x_eq, fmap_frame hq h.v_eq⟩
      have hpar2 : s2.param = s.param := hst.param.trans hkept.step.param
      have hx2 := h.x_ok
      rw [c.Y_of hg.1 hkept.step.param] at hx2
      have hv2 : M.VOk s2 (c.Y s X) v := by
        have := h.v_ok
        simp only [Mdl.VOk, c.Y_of hg.1 hkept.step.param, hg.2.Y_of hkept.step.param] at this
        simpa only [Mdl.VOk, hg.2.Y_of hpar2] using this
      have hM2 := (hg.2.jmjWdb (hf.2.2.resolve_left h0) (Nat.pos_of_ne_zero h0) (hg.2.wired_of hst.wiring h.wired) hB hx2 hwv).1 v hv2 hc
      obtain ⟨fl, s3, hfl, hflm, hst3, hc3⟩ := hM2
      have hsum := accum_vec (p := p) (r := r) (a := acc') (t := fl)
        (Y := fun b => M.QW s (c.Y s X) b *ᵥ wr (d b)) hacc'
        (by simp only [OptW, h0, if_false]; simpa only [hg.2.QW_of hpar2] using hflm)
        (by intro hp; funext b; rw [mulVec_zero_dim hp (c.QW s X b), mulVec_zero]; rfl)
        (fun h => absurd h h0)
      obtain ⟨acc3, hacc3, hm3⟩ := hsum
      have hk3 : Kept (MChain.snoc c M) B X s s3 := hkept.snoc hg.1 hnd' (hst.trans hst3) hc3
      have hnp : (snoc c M).npar = c.npar + 1 := by simp [npar, h0]
      obtain ⟨res, s4, hres, hQ⟩ := hk acc3 s3 hk3 (by simpa only [eq] using hm3)
      refine ⟨res, s4, ?_, hQ⟩
      rw [Prog.bind_ok h2.1, Prog.bind_ok h2.2, Prog.bind_ok (listGet_of hwget), Prog.bind_ok hfl, hacc3, ← hres, hnp]
      rfl

end loops
end MChain
end NNJ
