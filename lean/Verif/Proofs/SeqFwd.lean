import Verif.Proofs.MChain
import Verif.Proofs.LeafLinear

/-! Forward loops of Sequential. -/

namespace NNJ
open Tensor Matrix

namespace GoodI
variable {sI sO : List Nat} {n k p : Nat} {M : Mdl sI n sO k p} (hM : GoodI M) {s s' : Store ℝ} (e : s'.param = s.param) {B : Nat}
  (X : Fin B → Fin n → ℝ)
include hM e
theorem Y_of : M.Y s' X = M.Y s X := by funext b; simp only [Mdl.Y, hM.w_of e]
theorem J_of : M.J s' X = M.J s X := by funext b; simp only [Mdl.J, hM.w_of e]
theorem JW_of : M.JW s' X = M.JW s X := by funext b; simp only [Mdl.JW, hM.w_of e]
theorem Q_of : M.Q s' X = M.Q s X := by funext b; simp only [Mdl.Q, hM.w_of e]
theorem QW_of : M.QW s' X = M.QW s X := by funext b; simp only [Mdl.QW, hM.w_of e]
end GoodI

/-! ### calling one child -/

/-- State after `module(x)` for a child of `q` (possibly followed by products of the child): the
output was appended to the feature maps of `q`, the child's caches are those of a forward pass. -/
structure Called {sI sO : List Nat} {n k p : Nat} (q : Nat) (M : Mdl sI n sO k p) (B : Nat) (X : Fin B → Fin n → ℝ)
    (L : List (Tensor ℝ)) (v : Tensor ℝ) (s s' : Store ℝ) : Prop where
  step : Step (q :: M.ids) s s'
  cache : M.cache B X s'
  fmaps : s'.fmaps q = some (L ++ [v])

theorem Called.then {sI sO : List Nat} {n k p q : Nat} {M : Mdl sI n sO k p} {B : Nat} {X : Fin B → Fin n → ℝ} {L : List (Tensor ℝ)}
    {v : Tensor ℝ} {s s' s'' : Store ℝ} (h : Called q M B X L v s s') (hq : q ∉ M.ids) (hs : Step M.ids s' s'')
    (hc : M.cache B X s' → M.cache B X s'') : Called q M B X L v s s'' :=
  ⟨h.step.trans (hs.mono fun _ hi => List.mem_cons_of_mem _ hi), hc h.cache, by rw [(hs.frame q hq).1, h.fmaps]⟩

theorem run_call {sI sO : List Nat} {n k p : Nat} {M : Mdl sI n sO k p} (hM : GoodI M) {q : Nat} {s : Store ℝ} {B : Nat}
    {X : Fin B → Fin n → ℝ} {x : Tensor ℝ} {L : List (Tensor ℝ)} (hw : M.wired s) (hh : s.hooks M.m.id = [q]) (hq : q ∉ M.ids)
    (hL : s.fmaps q = some L) (hB : 0 < B) (hx : IsBatch x B sI n X) :
    Run (M.m.call x) s fun v s' => IsBatch v B sO k (M.Y s X) ∧ Called q M B X L v s s' := by
  obtain ⟨v, s', hv, hb, hs, hc⟩ := hM.forward hw hB hx
  have hh' : s'.hooks M.m.id = [q] := by rw [hs.hooks, hh]
  have hL' : s'.fmaps q = some L := by rw [(hs.frame q hq).1, hL]
  have e : M.m.call x s = (.ok v, { s' with fmaps := fun j => if j = q then some (L ++ [v]) else s'.fmaps j }) := by
    simp only [Mod.call]
    rw [Prog.bind_ok hv, Prog.bind_read_run, hh']
    simp only [Mod.runHooks]
    rw [Prog.bind_ok (b := ()) (s' := { s' with fmaps := fun j => if j = q then some (L ++ [v]) else s'.fmaps j })]
    · rfl
    · rw [Prog.bind_ok (b := ()) (s' := { s' with fmaps := fun j => if j = q then some (L ++ [v]) else s'.fmaps j })]
      · rfl
      · simp only [Mod.runHook, hL']
  refine ⟨v, _, e, hb, ⟨hs.param, hs.hooks, fun i => ?_, fun i hi => ?_⟩, ?_, by simp⟩
  · show Option.isSome (if i = q then _ else _) = _
    split_ifs with h
    · subst h; simp [hL]
    · exact hs.some i
  · have h1 : i ≠ q := fun h => hi (by simp [h])
    have h2 := hs.frame i fun h => hi (List.mem_cons_of_mem _ h)
    exact ⟨by simp only [h1, if_false]; exact h2.1, h2.2⟩
  · refine hM.cache_frame (s := s') rfl (fun i hi => ⟨?_, rfl⟩) hc
    have h1 : i ≠ q := fun h => hq (h ▸ hi)
    simp only [h1, if_false]

namespace MChain

variable {sI sO : List Nat} {n k p l : Nat}

/-- Jacobians for each sample -/
def J (c : MChain sI n sO k p l) (s : Store ℝ) {B : Nat} (X : Fin B → Fin n → ℝ) (b : Fin B) := c.S.J (c.w s) (X b)
def JW (c : MChain sI n sO k p l) (s : Store ℝ) {B : Nat} (X : Fin B → Fin n → ℝ) (b : Fin B) := c.S.JW (c.w s) (X b)
def Q (c : MChain sI n sO k p l) (s : Store ℝ) {B : Nat} (X : Fin B → Fin n → ℝ) (b : Fin B) := c.S.Q (c.w s) (X b)
def QW (c : MChain sI n sO k p l) (s : Store ℝ) {B : Nat} (X : Fin B → Fin n → ℝ) (b : Fin B) := c.S.QW (c.w s) (X b)

section snoc
variable {sK : List Nat} {j r B : Nat} (c : MChain sI n sO k p l) (M : Mdl sO k sK j r) (s : Store ℝ) (X : Fin B → Fin n → ℝ) (b : Fin B)
theorem Y_snoc : (snoc c M).Y s X b = M.Y s (c.Y s X) b := by
  simp only [Y, Mdl.Y, S, w, Sem.comp, wl_append, wr_append]
theorem J_snoc : (snoc c M).J s X b = M.J s (c.Y s X) b * c.J s X b := by
  simp only [J, Y, Mdl.J, S, w, Sem.comp, wl_append, wr_append]
theorem JW_snoc : (snoc c M).JW s X b = hcat (M.J s (c.Y s X) b * c.JW s X b) (M.JW s (c.Y s X) b) := by
  simp only [JW, Y, Mdl.J, Mdl.JW, S, w, Sem.comp, wl_append, wr_append]
theorem Q_snoc : (snoc c M).Q s X b = M.Q s (c.Y s X) b * c.Q s X b := by
  simp only [Q, Y, Mdl.Q, S, w, Sem.comp, wl_append, wr_append]
theorem QW_snoc : (snoc c M).QW s X b = hcat (M.Q s (c.Y s X) b * c.QW s X b) (M.QW s (c.Y s X) b) := by
  simp only [QW, Y, Mdl.Q, Mdl.QW, S, w, Sem.comp, wl_append, wr_append]
end snoc

/-- State after running the layers of `c` on `x`, the feature maps of `q` having been `L`. -/
structure Ran (q : Nat) (c : MChain sI n sO k p l) (B : Nat) (X : Fin B → Fin n → ℝ) (x : Tensor ℝ)
    (L : List (Tensor ℝ)) (s s' : Store ℝ) : Prop where
  step : Step (q :: c.ids) s s'
  kids : c.kids B X s'
  fmaps : ∃ E, s'.fmaps q = some (L ++ E) ∧ E.length = l ∧ listOk (x :: E) c B X (c.w s)

theorem Ran.snoc {sK : List Nat} {j r q B : Nat} {c : MChain sI n sO k p l} {M : Mdl sO k sK j r} {X : Fin B → Fin n → ℝ}
    {x : Tensor ℝ} {L E : List (Tensor ℝ)} {s s' s'' : Store ℝ} {v : Tensor ℝ} (hg : c.AllGoodI)
    (hnd : (q :: (c.ids ++ M.ids)).Nodup) (hv : IsBatch v B sK j (M.Y s (c.Y s X)))
    (step : Step (q :: c.ids) s s') (kids : c.kids B X s') (he : E.length = l) (hl : listOk (x :: E) c B X (c.w s))
    (h' : Called q M B (c.Y s X) (L ++ E) v s' s'') : Ran q (MChain.snoc c M) B X x L s s'' := by
  have hst : Step (q :: (c.ids ++ M.ids)) s s'' :=
    (step.mono fun i hi => by simp at hi ⊢; tauto).trans (h'.step.mono fun i hi => by simp at hi ⊢; tauto)
  refine ⟨hst, ⟨?_, ?_⟩, E ++ [v], ?_, by simp [he], ?_, v, ?_, ?_⟩
  · refine c.kids_frame hg h'.step.param (fun i hi => ?_) kids
    refine h'.step.frame i fun hh => ?_
    simp only [List.nodup_cons, List.nodup_append, List.mem_append, List.mem_cons] at hnd hh
    rcases hh with rfl | hh
    · exact hnd.1 (Or.inl hi)
    · exact hnd.2.2.2 i hi i hh rfl
  · rw [c.Y_of hg hst.param]; exact h'.cache
  · rw [h'.fmaps]; simp
  · show listOk (x :: (E ++ [v])) c B X (wl (Fin.append _ _))
    rw [wl_append]
    exact listOk_append (E := [v]) hl
  · subst he; simp
  · refine hv.congr fun b i => ?_
    rw [← Y_snoc]; rfl

/-- `Ran` and the loops: common induction.  `loop` is a loop over modules with state `(x, a)`;
`T` relates the loop variable `a` after the layers of `c`. -/
theorem ran_nil {q B : Nat} {X : Fin B → Fin n → ℝ} {x : Tensor ℝ} {L : List (Tensor ℝ)} {s : Store ℝ} (hx : IsBatch x B sI n X)
    (hL : s.fmaps q = some L) : Ran q (nil sI n) B X x L s s :=
  ⟨Step.refl, trivial, [], by simpa using hL, rfl, x, rfl, hx⟩

section loops
variable {q B : Nat} {X : Fin B → Fin n → ℝ} {x : Tensor ℝ} {L : List (Tensor ℝ)} {s : Store ℝ} {β : Type}

/-- The induction for all forward loops: if a property `T c y a` of the loop state holds initially
and is carried on by each layer, it holds after all layers. -/
theorem loop_ind {α' : Type} {N : Nat} (loop : List (Mod ℝ) → Tensor ℝ → α' → Prog ℝ β) {Q : β → Store ℝ → Prop} {a₀ : α'}
    (T : ∀ {sO k p l}, MChain sI n sO k p l → α' → Prop) (P : ∀ {s s' : List Nat} {n k p : Nat}, Mdl s n s' k p → Prop) (hx : IsBatch x B sI n X) (hL : s.fmaps q = some L)
    (h0 : T (nil sI n) a₀)
    (hstep : ∀ {sO k p l sK j r} (c : MChain sI n sO k p l) (M : Mdl sO k sK j r) (rest : List (Mod ℝ)) (y : Tensor ℝ) (a : α') (s' : Store ℝ)
      (L' : List (Tensor ℝ)), p + r ≤ N → c.AllGoodI → GoodI M → P M → (q :: (c.ids ++ M.ids)).Nodup → M.wired s' → s'.hooks M.m.id = [q] → q ∉ M.ids →
      s'.fmaps q = some L' → s'.param = s.param → IsBatch y B sO k (c.Y s X) → T c a →
      (∀ v a' s'', IsBatch v B sK j (M.Y s (c.Y s X)) → T (snoc c M) a' → Called q M B (c.Y s X) L' v s' s'' →
        Run (loop rest v a') s'' Q) → Run (loop (M.m :: rest) y a) s' Q)
    (c : MChain sI n sO k p l) (hN : p ≤ N) (hg : c.AllGoodI) (hP : All P c) (hnd : (q :: c.ids).Nodup) (hw : c.Wired q s) (rest : List (Mod ℝ))
    (hfin : ∀ y a s', IsBatch y B sO k (c.Y s X) → T c a → Ran q c B X x L s s' → Run (loop rest y a) s' Q) :
    Run (loop (c.mods ++ rest) x a₀) s Q := by
  induction c generalizing rest with
  | nil => exact hfin x a₀ s hx h0 (ran_nil hx hL)
  | snoc c M ih =>
    simp only [mods, List.append_assoc, List.singleton_append]
    have hnd' : (q :: (c.ids ++ M.ids)).Nodup := hnd
    have hndc : (q :: c.ids).Nodup := by
      simp only [List.nodup_cons, List.nodup_append, List.mem_append] at hnd' ⊢; tauto
    have hqM : q ∉ M.ids := by
      simp only [List.nodup_cons, List.mem_append] at hnd'; tauto
    refine ih T hx h0 hstep (by omega) hg.1 hP.1 hndc hw.1 (M.m :: rest) fun y a s' hy hT hr => ?_
    obtain ⟨hst, hk, E, hE, hlen, hl⟩ := hr
    refine hstep c M rest y a s' (L ++ E) hN hg.1 hg.2 hP.2 hnd' (hg.2.wired_of hst.wiring hw.2.1) ?_ hqM hE hst.param hy hT ?_
    · rw [hst.hooks]; exact hw.2.2
    · intro v a' s'' hv hT' hcall
      exact hfin v a' s'' (hv.congr fun b i => by rw [Y_snoc]) hT' (Ran.snoc hg.1 hnd' hv hst hk hlen hl hcall)

variable {c : MChain sI n sO k p l} {Q : β → Store ℝ → Prop}

theorem all_true (c : MChain sI n sO k p l) : All (fun _ => True) c := by
  induction c with
  | nil => trivial
  | snoc c M ih => exact ⟨ih, trivial⟩

theorem all_and {P R : ∀ {s s' : List Nat} {n k p : Nat}, Mdl s n s' k p → Prop} {c : MChain sI n sO k p l} (h : All P c) (h' : All R c) :
    All (fun M => P M ∧ R M) c := by
  induction c with
  | nil => trivial
  | snoc c M ih => exact ⟨ih h.1 h'.1, h.2, h'.2⟩

theorem run_loop (hg : c.AllGoodI) (hnd : (q :: c.ids).Nodup) (hw : c.Wired q s) (hB : 0 < B) (hx : IsBatch x B sI n X)
    (hL : s.fmaps q = some L) :
    Run (Sequential.run c.mods x) s fun y s' => IsBatch y B sO k (c.Y s X) ∧ Ran q c B X x L s s' := by
  rw [← List.append_nil c.mods]
  refine loop_ind (fun ms y (_ : Unit) => Sequential.run ms y) (a₀ := ()) (fun _ _ => True) (fun _ => True) hx hL trivial ?_ c le_rfl hg
    c.all_true hnd hw [] ?_
  · intro sO k p l sK j r c M rest y a s' L' hN hg hM _ hnd hMw hh hq hL' hpar hy _ hk
    refine (run_call hM hMw hh hq hL' hB hy).bind fun v s'' ⟨hv, hcall⟩ => ?_
    exact hk v () s'' (by rwa [hM.Y_of hpar] at hv) trivial hcall
  · intro y a s' hy _ hr
    exact Run.pure ⟨hy, hr⟩

theorem jvpInput_loop (hg : c.AllGood) (hf : c.fwdI) (hnd : (q :: c.ids).Nodup) (hw : c.Wired q s) (hB : 0 < B) (hx : IsBatch x B sI n X)
    (hL : s.fmaps q = some L) {u : Tensor ℝ} {U : Fin B → Fin n → ℝ} (hu : IsVec u B n U) :
    Run (Sequential.jvpInput c.mods x u) s fun y s' => IsVec y B k (fun b => c.J s X b *ᵥ U b) ∧ Ran q c B X x L s s' := by
  rw [← List.append_nil c.mods]
  refine loop_ind (fun ms y a => Sequential.jvpInput ms y a) (a₀ := u) (@fun sO k p l c a => IsVec a B k fun b => c.J s X b *ᵥ U b)
    (fun M => Good M ∧ M.fwdI) hx hL ?_ ?_ c le_rfl hg.toI (all_and hg.all hf) hnd hw [] ?_
  · exact hu.congr fun b i => by simp [J, S, Sem.id]
  · intro sO k p l sK j r c M rest y a s' L' hN hg _ ⟨hM, hfM⟩ hnd hMw hh hq hL' hpar hy hT hk
    refine (run_call hM hMw hh hq hL' hB hy).bind fun v s'' ⟨hv, hcall⟩ => ?_
    have hv' : IsBatch v B sK j (M.Y s'' (c.Y s X)) := by rwa [hM.Y_of hcall.step.param]
    refine Run.bindNeed ((hM.jvpI hfM (hM.wired_of hcall.step.wiring hMw) hB hy hT) (some v) ?_) fun t s3 ht h3 => ?_
    · intro v' h; cases h; exact Or.inr hv'
    · refine hk v t s3 (by rwa [hM.Y_of hpar] at hv) ?_ (hcall.then hq h3.1 h3.2)
      exact ht.congr fun b i => by
        rw [J_snoc, ← mulVec_mulVec]
        rw [hM.J_of hcall.step.param, hM.J_of hpar]
  · intro y a s' hy hT hr
    exact Run.pure ⟨hT, hr⟩

theorem jmpInput_loop (hg : c.AllGood) (hf : c.fwdI) (hnd : (q :: c.ids).Nodup) (hw : c.Wired q s) (hB : 0 < B) (hx : IsBatch x B sI n X)
    (hL : s.fmaps q = some L) {u : Tensor ℝ} {r : Nat} {U : Fin B → Matrix (Fin n) (Fin r) ℝ} (hu : IsMat u B n r U) :
    Run (Sequential.jmpInput c.mods x u) s fun y s' => IsMat y B k r (fun b => c.J s X b * U b) ∧ Ran q c B X x L s s' := by
  rw [← List.append_nil c.mods]
  refine loop_ind (fun ms y a => Sequential.jmpInput ms y a) (a₀ := u) (@fun sO k p l c a => IsMat a B k r fun b => c.J s X b * U b)
    (fun M => Good M ∧ M.fwdI) hx hL ?_ ?_ c le_rfl hg.toI (all_and hg.all hf) hnd hw [] ?_
  · exact hu.congr fun b i _ => by simp [J, S, Sem.id]
  · intro sO k p l sK j r c M rest y a s' L' hN hg _ ⟨hM, hfM⟩ hnd hMw hh hq hL' hpar hy hT hk
    refine (run_call hM hMw hh hq hL' hB hy).bind fun v s'' ⟨hv, hcall⟩ => ?_
    have hv' : IsBatch v B sK j (M.Y s'' (c.Y s X)) := by rwa [hM.Y_of hcall.step.param]
    refine Run.bindNeed ((hM.jmpI hfM (hM.wired_of hcall.step.wiring hMw) hB hy hT) (some v) ?_) fun t s3 ht h3 => ?_
    · intro v' h; cases h; exact Or.inr hv'
    · refine hk v t s3 (by rwa [hM.Y_of hpar] at hv) ?_ (hcall.then hq h3.1 h3.2)
      exact ht.congr fun b i _ => by
        rw [J_snoc, Matrix.mul_assoc]
        rw [hM.J_of hcall.step.param, hM.J_of hpar]
  · intro y a s' hy hT hr
    exact Run.pure ⟨hT, hr⟩

theorem accum_vec {p r m : Nat} {a t : Option (Tensor ℝ)} {Z Y : Fin B → Fin m → ℝ} (ha : OptW p (fun t => IsVec t B m Z) a)
    (ht : OptW r (fun t => IsVec t B m Y) t) (h0 : p = 0 → Z = 0) (h0' : r = 0 → Y = 0) :
    Ret (Sequential.accum a t) (OptW (p + r) fun t => IsVec t B m fun b => Z b + Y b) := by
  unfold OptW at *
  by_cases hr : r = 0
  · subst hr
    simp only [if_true] at ht
    subst ht
    simp only [h0' rfl, Nat.add_zero]
    refine Ret.ok ?_
    split_ifs at ha ⊢
    · exact ha
    · exact IsSome.mono ha fun t ht => ht.congr fun b i => by simp
  · have hpr : p + r ≠ 0 := by omega
    simp only [hr, hpr, if_false] at ht ⊢
    cases t with
    | none => exact ht.elim
    | some t =>
      by_cases hp : p = 0
      · subst hp
        simp only [if_true] at ha
        subst ha
        simp only [h0 rfl]
        exact Ret.ok (IsVec.congr ht fun b i => by simp)
      · simp only [hp, if_false] at ha
        cases a with
        | none => exact ha.elim
        | some a => exact (addInPlace_vec ha ht).some

theorem accum_mat {p r m m' : Nat} {a t : Option (Tensor ℝ)} {Z Y : Fin B → Matrix (Fin m) (Fin m') ℝ} (ha : OptW p (fun t => IsMat t B m m' Z) a)
    (ht : OptW r (fun t => IsMat t B m m' Y) t) (h0 : p = 0 → Z = 0) (h0' : r = 0 → Y = 0) :
    Ret (Sequential.accum a t) (OptW (p + r) fun t => IsMat t B m m' fun b => Z b + Y b) := by
  unfold OptW at *
  by_cases hr : r = 0
  · subst hr
    simp only [if_true] at ht
    subst ht
    simp only [h0' rfl, Nat.add_zero]
    refine Ret.ok ?_
    split_ifs at ha ⊢
    · exact ha
    · exact IsSome.mono ha fun t ht => ht.congr fun b i j => by simp
  · have hpr : p + r ≠ 0 := by omega
    simp only [hr, hpr, if_false] at ht ⊢
    cases t with
    | none => exact ht.elim
    | some t =>
      by_cases hp : p = 0
      · subst hp
        simp only [if_true] at ha
        subst ha
        simp only [h0 rfl]
        exact Ret.ok (IsMat.congr ht fun b i j => by simp)
      · simp only [hp, if_false] at ha
        cases a with
        | none => exact ha.elim
        | some a => exact (addInPlace_mat ha ht).some

theorem mulVec_zero_dim {m p : Nat} (h : p = 0) (A : Matrix (Fin m) (Fin p) ℝ) (v : Fin p → ℝ) : A *ᵥ v = 0 := by
  subst h; funext i; simp [mulVec, dotProduct]
theorem mul_zero_dim {m p r : Nat} (h : p = 0) (A : Matrix (Fin m) (Fin p) ℝ) (v : Matrix (Fin p) (Fin r) ℝ) : A * v = 0 := by
  subst h; ext i j; simp [mul_apply]

theorem jvpWeight_loop (hg : c.AllGood) (hf : c.fwdI) (hfW : c.fwdW) (hnd : (q :: c.ids).Nodup) (hw : c.Wired q s) (hB : 0 < B)
    (hx : IsBatch x B sI n X) (hL : s.fmaps q = some L) {u : Tensor ℝ} {U : Fin B → Fin p → ℝ} (hu : IsVec u B p U) :
    Run (Sequential.jvpWeight u c.mods x 0 none) s fun y s' =>
      OptW p (fun t => IsVec t B k fun b => c.JW s X b *ᵥ U b) y.1 ∧ y.2 = p ∧ Ran q c B X x L s s' := by
  rw [← List.append_nil c.mods]
  -- the vector of the first `p'` weights
  refine loop_ind (fun ms y (a : Nat × Option (Tensor ℝ)) => Sequential.jvpWeight u ms y a.1 a.2) (a₀ := (0, none))
    (@fun sO k p' l c a => a.1 = p' ∧ ∀ h : p' ≤ p, OptW p' (fun t => IsVec t B k fun b => c.JW s X b *ᵥ fun i => U b (Fin.castLE h i)) a.2)
    (fun M => Good M ∧ M.fwdI ∧ M.fwdW) hx hL ⟨rfl, fun _ => by simp [OptW]⟩ ?_ c le_rfl hg.toI (all_and hg.all (all_and hf hfW)) hnd hw [] ?_
  · intro sO k p' l sK j r c M rest y a s' L' hN hg _ ⟨hM, hfM⟩ hnd hMw hh hq hL' hpar hy hT hk
    obtain ⟨i, acc⟩ := a
    obtain ⟨hi, hacc⟩ := hT
    replace hi : i = p' := hi
    subst hi
    replace hacc := hacc (by omega)
    refine (run_call hM hMw hh hq hL' hB hy).bind fun v s'' ⟨hv, hcall⟩ => ?_
    have hv' : IsBatch v B sK j (M.Y s'' (c.Y s X)) := by rwa [hM.Y_of hcall.step.param]
    have hpar2 : s''.param = s.param := hcall.step.param.trans hpar
    have hw2 := hM.wired_of hcall.step.wiring hMw
    have hAcc : Run (Sequential.through acc fun a => M.m.jvp y (some v) a .input) s'' fun r s3 =>
          OptW i (fun t => IsVec t B j fun b => M.J s (c.Y s X) b *ᵥ (c.JW s X b *ᵥ fun i => U b (Fin.castLE (by omega) i))) r ∧
          Called q M B (c.Y s X) L' v s' s3 := by
      unfold OptW at hacc ⊢
      split_ifs at hacc ⊢ with h0
      · replace hacc : acc = none := hacc
        subst hacc
        exact Run.pure ⟨rfl, hcall⟩
      · cases acc with
        | none => exact hacc.elim
        | some t =>
          refine ((hM.jvpI hfM.1 hw2 hB hy hacc) (some v) ?_).mono fun r s3 h3 => ⟨?_, hcall.then hq h3.2.1 h3.2.2⟩
          · intro v' h; cases h; exact Or.inr hv'
          · rw [hM.J_of hpar2] at h3; exact h3.1
    refine hAcc.bind fun acc' s3 ⟨hacc', hcall3⟩ => ?_
    have hpar3 : s3.param = s.param := hcall3.step.param.trans hpar
    have hw3 := hM.wired_of hcall3.step.wiring hMw
    have hv3 : IsBatch v B sK j (M.Y s3 (c.Y s X)) := by rwa [hM.Y_of hcall3.step.param]
    rw [hM.nParams]
    refine Run.bindLift (slice_vec (lo := i) (m := r) hu hN) fun vec hvec => ?_
    refine ((hM.jvpW hfM.1 hfM.2 hw3 hB hy hvec) (some v) ?_).bind fun fl s4 ⟨hfl, h4⟩ => ?_
    · intro v' h; cases h; exact Or.inr hv3
    rw [hM.JW_of hpar3] at hfl
    refine Run.bindLift (accum_vec hacc' hfl ?_ ?_) fun acc4 h => ?_
    · intro h0; funext b; rw [mulVec_zero_dim h0, mulVec_zero]; rfl
    · intro h0; funext b; rw [mulVec_zero_dim h0]; rfl
    refine hk v (i + r, acc4) s4 (by rwa [hM.Y_of hpar] at hv) ⟨rfl, fun _ => ?_⟩ (hcall3.then hq h4.1 h4.2)
    refine OptW.mono h fun t ht => ht.congr fun b m => ?_
    rw [JW_snoc, hcat_mulVec, ← mulVec_mulVec]
    rfl
  · intro y a s' hy hT hr
    refine Run.pure ⟨?_, hT.1, hr⟩
    exact hT.2 le_rfl

theorem jmpWeight_loop (hg : c.AllGood) (hf : c.fwdI) (hfW : c.fwdW) (hnd : (q :: c.ids).Nodup) (hw : c.Wired q s) (hB : 0 < B)
    (hx : IsBatch x B sI n X) (hL : s.fmaps q = some L) {u : Tensor ℝ} {m : Nat} {U : Fin B → Matrix (Fin p) (Fin m) ℝ} (hu : IsMat u B p m U) :
    Run (Sequential.jmpWeight u c.mods x 0 none) s fun y s' =>
      OptW p (fun t => IsMat t B k m fun b => c.JW s X b * U b) y.1 ∧ y.2 = p ∧ Ran q c B X x L s s' := by
  rw [← List.append_nil c.mods]
  -- the vector of the first `p'` weights
  refine loop_ind (fun ms y (a : Nat × Option (Tensor ℝ)) => Sequential.jmpWeight u ms y a.1 a.2) (a₀ := (0, none))
    (@fun sO k p' l c a => a.1 = p' ∧ ∀ h : p' ≤ p, OptW p' (fun t => IsMat t B k m fun b => c.JW s X b * Matrix.of fun i => U b (Fin.castLE h i)) a.2)
    (fun M => Good M ∧ M.fwdI ∧ M.fwdW) hx hL ⟨rfl, fun _ => by simp [OptW]⟩ ?_ c le_rfl hg.toI (all_and hg.all (all_and hf hfW)) hnd hw [] ?_
  · intro sO k p' l sK j r c M rest y a s' L' hN hg _ ⟨hM, hfM⟩ hnd hMw hh hq hL' hpar hy hT hk
    obtain ⟨i, acc⟩ := a
    obtain ⟨hi, hacc⟩ := hT
    replace hi : i = p' := hi
    subst hi
    replace hacc := hacc (by omega)
    refine (run_call hM hMw hh hq hL' hB hy).bind fun v s'' ⟨hv, hcall⟩ => ?_
    have hv' : IsBatch v B sK j (M.Y s'' (c.Y s X)) := by rwa [hM.Y_of hcall.step.param]
    have hpar2 : s''.param = s.param := hcall.step.param.trans hpar
    have hw2 := hM.wired_of hcall.step.wiring hMw
    have hAcc : Run (Sequential.through acc fun a => M.m.jmp y (some v) (some a) .input) s'' fun r s3 =>
          OptW i (fun t => IsMat t B j m fun b => M.J s (c.Y s X) b * (c.JW s X b * Matrix.of fun i => U b (Fin.castLE (by omega) i))) r ∧
          Called q M B (c.Y s X) L' v s' s3 := by
      unfold OptW at hacc ⊢
      split_ifs at hacc ⊢ with h0
      · replace hacc : acc = none := hacc
        subst hacc
        exact Run.pure ⟨rfl, hcall⟩
      · cases acc with
        | none => exact hacc.elim
        | some t =>
          refine ((hM.jmpI hfM.1 hw2 hB hy hacc) (some v) ?_).mono fun r s3 h3 => ⟨?_, hcall.then hq h3.2.1 h3.2.2⟩
          · intro v' h; cases h; exact Or.inr hv'
          · rw [hM.J_of hpar2] at h3; exact h3.1
    refine hAcc.bind fun acc' s3 ⟨hacc', hcall3⟩ => ?_
    have hpar3 : s3.param = s.param := hcall3.step.param.trans hpar
    have hw3 := hM.wired_of hcall3.step.wiring hMw
    have hv3 : IsBatch v B sK j (M.Y s3 (c.Y s X)) := by rwa [hM.Y_of hcall3.step.param]
    rw [hM.nParams]
    refine Run.bindLift (slice_rows (lo := i) (q := r) hu hN) fun vec hvec => ?_
    refine ((hM.jmpW hfM.1 hfM.2 hw3 hB hy hvec) (some v) ?_).bind fun fl s4 ⟨hfl, h4⟩ => ?_
    · intro v' h; cases h; exact Or.inr hv3
    rw [hM.JW_of hpar3] at hfl
    refine Run.bindLift (accum_mat hacc' hfl ?_ ?_) fun acc4 h => ?_
    · intro h0; funext b; rw [mul_zero_dim h0, Matrix.mul_zero]; rfl
    · intro h0; funext b; exact mul_zero_dim h0 _ _
    refine hk v (i + r, acc4) s4 (by rwa [hM.Y_of hpar] at hv) ⟨rfl, fun _ => ?_⟩ (hcall3.then hq h4.1 h4.2)
    refine OptW.mono h fun t ht => ht.congr fun b m _ => ?_
    rw [JW_snoc, hcat_mul, Matrix.mul_assoc]
    rfl
  · intro y a s' hy hT hr
    refine Run.pure ⟨?_, hT.1, hr⟩
    exact hT.2 le_rfl

end loops
end MChain

end NNJ
