import Verif.Spec.Loose
import Verif.Proofs.NetFacts
import Verif.Proofs.DerivL2

/-! Forward mode needs no wiring. -/

namespace NNJ
open Tensor Matrix

theorem Still.refl {s : Store ℝ} : Still s s := ⟨rfl, rfl, fun _ h => h⟩
theorem Still.trans {s s' s'' : Store ℝ} (h : Still s s') (h' : Still s' s'') : Still s s'' :=
  ⟨h'.param.trans h.param, h'.hooks.trans h.hooks, fun i hi => h'.some i (h.some i hi)⟩
theorem Step.still {ids : List Nat} {s s' : Store ℝ} (h : Step ids s s') : Still s s' :=
  ⟨h.param, h.hooks, fun i hi => by rw [h.some i]; exact hi⟩
theorem HooksOk.still {s s' : Store ℝ} (h : Still s s') (hs : HooksOk s) : HooksOk s' :=
  fun i q hq => h.some q (hs i q (by rwa [h.hooks] at hq))

theorem run_hooks (v : Tensor ℝ) : ∀ (hs : List Nat) (s : Store ℝ), (∀ q ∈ hs, (s.fmaps q).isSome) →
    Run (Mod.runHooks v hs) s fun _ s' => Still s s'
  | [], s, _ => Run.pure' Still.refl
  | q :: hs, s, h => by
    obtain ⟨L, hL⟩ := Option.isSome_iff_exists.1 (h q (by simp))
    let s1 : Store ℝ := { s with fmaps := fun j => if j = q then some (L ++ [v]) else s.fmaps j }
    have h1 : Still s s1 := ⟨rfl, rfl, fun i hi => by
      show Option.isSome (if i = q then _ else _) = true
      split_ifs
      · rfl
      · exact hi⟩
    have e : Mod.runHook v q s = (.ok (), s1) := by simp only [Mod.runHook, hL]; rfl
    simp only [Mod.runHooks]
    refine Run.bind (P := fun _ s' => s' = s1) (Run.ofEq e rfl) fun _ s' hs' => ?_
    subst hs'
    exact (run_hooks v hs s1 fun q' hq' => h1.some q' (h q' (by simp [hq']))).mono fun _ _ h' => h1.trans h'

/-- forward-mode calls of a module in a state where `M.wired` holds -/
def Mdl.FwdL {sI sO : List Nat} {n k p : Nat} (M : Mdl sI n sO k p) {β : Type} (s : Store ℝ) {B : Nat} (X : Fin B → Fin n → ℝ)
    (call : Option (Tensor ℝ) → Prog ℝ β) (post : β → Prop) : Prop :=
  ∀ val, (∀ v ∈ val, M.VOk s X v) → Run (call val) s fun r s' => post r ∧ Still s s'

/-- the part of the contract that needs no wiring; `M.wired` is meant to speak about parameters and `HooksOk` only -/
structure LGood {sI sO : List Nat} {n k p : Nat} (M : Mdl sI n sO k p) : Prop where
  hn : size sI = n
  hk : size sO = k
  nParams : M.m.nParams = p
  hooksOk : ∀ {s}, M.wired s → HooksOk s
  wired_of : ∀ {s s'}, Still s s' → M.wired s → M.wired s'
  w_of : ∀ {s s'}, s'.param = s.param → M.w s' = M.w s
  forward : ∀ {s B X x}, M.wired s → 0 < B → IsBatch x B sI n X →
    Run (M.m.forward x) s fun v s' => IsBatch v B sO k (M.Y s X) ∧ Still s s'
  jvpI : M.fwdI → ∀ {s B X x u U}, M.wired s → 0 < B → IsBatch x B sI n X → IsVec u B n U →
    M.FwdL s X (fun val => M.m.jvp x val u .input) (IsSome fun t => IsVec t B k fun b => M.J s X b *ᵥ U b)
  jvpW : M.fwdI → M.fwdW → ∀ {s B X x u U}, M.wired s → 0 < B → IsBatch x B sI n X → IsVec u B p U →
    M.FwdL s X (fun val => M.m.jvp x val u .weight) (OptW p fun t => IsVec t B k fun b => M.JW s X b *ᵥ U b)
  jmpI : M.fwdI → ∀ {s B X x r A Z}, M.wired s → 0 < B → IsBatch x B sI n X → IsMat A B n r Z →
    M.FwdL s X (fun val => M.m.jmp x val (some A) .input) (IsSome fun t => IsMat t B k r fun b => M.J s X b * Z b)
  jmpW : M.fwdI → M.fwdW → ∀ {s B X x r A Z}, M.wired s → 0 < B → IsBatch x B sI n X → IsMat A B p r Z →
    M.FwdL s X (fun val => M.m.jmp x val (some A) .weight) (OptW p fun t => IsMat t B k r fun b => M.JW s X b * Z b)

/-- the same module with a weaker condition on the state -/
def Mdl.loosen {sI sO : List Nat} {n k p : Nat} (M : Mdl sI n sO k p) (P : Store ℝ → Prop) : Mdl sI n sO k p :=
  { M with wired := fun s => P s ∧ HooksOk s }

theorem Good.lgood {sI sO : List Nat} {n k p : Nat} {M : Mdl sI n sO k p} (h : Good M) (hp : ∀ {s s'}, s'.param = s.param → M.wired s → M.wired s') :
    LGood (M.loosen M.wired) where
  hn := h.hn
  hk := h.hk
  nParams := h.nParams
  hooksOk := fun h => h.2
  wired_of := fun hs hw => ⟨hp hs.param hw.1, hw.2.still hs⟩
  w_of := h.w_of
  forward := fun hw hB hx => (h.forward hw.1 hB hx).mono fun _ _ hr => ⟨hr.1, hr.2.1.still⟩
  jvpI := fun hf _ _ _ _ _ _ hw hB hx hu val hv => (h.jvpI hf hw.1 hB hx hu val hv).mono fun _ _ hr => ⟨hr.1, hr.2.1.still⟩
  jvpW := fun hf hf' _ _ _ _ _ _ hw hB hx hu val hv => (h.jvpW hf hf' hw.1 hB hx hu val hv).mono fun _ _ hr => ⟨hr.1, hr.2.1.still⟩
  jmpI := fun hf _ _ _ _ _ _ _ hw hB hx hu val hv => (h.jmpI hf hw.1 hB hx hu val hv).mono fun _ _ hr => ⟨hr.1, hr.2.1.still⟩
  jmpW := fun hf hf' _ _ _ _ _ _ _ hw hB hx hu val hv => (h.jmpW hf hf' hw.1 hB hx hu val hv).mono fun _ _ hr => ⟨hr.1, hr.2.1.still⟩

namespace LGood
variable {sI sO : List Nat} {n k p : Nat} {M : Mdl sI n sO k p} (hM : LGood M)
section
variable {s s' : Store ℝ} (e : s'.param = s.param) {B : Nat} (X : Fin B → Fin n → ℝ)
include hM e
theorem Y_of : M.Y s' X = M.Y s X := by funext b; simp only [Mdl.Y, hM.w_of e]
theorem J_of : M.J s' X = M.J s X := by funext b; simp only [Mdl.J, hM.w_of e]
theorem JW_of : M.JW s' X = M.JW s X := by funext b; simp only [Mdl.JW, hM.w_of e]
end

include hM in
theorem call {s : Store ℝ} {B : Nat} {X : Fin B → Fin n → ℝ} {x : Tensor ℝ} (hw : M.wired s) (hB : 0 < B) (hx : IsBatch x B sI n X) :
    Run (M.m.call x) s fun v s' => IsBatch v B sO k (M.Y s X) ∧ Still s s' := by
  simp only [Mod.call]
  refine (hM.forward hw hB hx).bind fun v s1 ⟨hv, h1⟩ => ?_
  refine Run.bind (P := fun hs s' => hs = s1.hooks M.m.id ∧ s' = s1) ⟨_, _, rfl, rfl, rfl⟩ fun hs s' ⟨hh, hs'⟩ => ?_
  subst hh; subst hs'
  refine (run_hooks v _ s' fun q hq => hM.hooksOk (hM.wired_of h1 hw) _ q hq).bind fun _ s2 h2 => ?_
  exact Run.pure ⟨hv, h1.trans h2⟩

end LGood

namespace MChain
variable {sI sO : List Nat} {n k p l : Nat}

theorem w_still {c : MChain sI n sO k p l} (hg : All (fun M => LGood M) c) {s s' : Store ℝ} (e : s'.param = s.param) : c.w s' = c.w s := by
  induction c with
  | nil => rfl
  | snoc c M ih => simp only [w, ih hg.1, hg.2.w_of e]

theorem nParamsL {c : MChain sI n sO k p l} (hg : All (fun M => LGood M) c) : Sequential.nParams c.mods = p := by
  induction c with
  | nil => rfl
  | snoc c M ih =>
    have := ih hg.1
    simp only [Sequential.nParams] at this
    simp only [mods, Sequential.nParams, List.map_append, List.sum_append, this, List.map_cons, List.map_nil, List.sum_singleton, hg.2.nParams]

section loops
variable {B : Nat} {X : Fin B → Fin n → ℝ} {x : Tensor ℝ} {s : Store ℝ} {β : Type}

/-- The induction for the forward loops. -/
theorem loopL {α' : Type} {N : Nat} (loop : List (Mod ℝ) → Tensor ℝ → α' → Prog ℝ β) {Q : β → Store ℝ → Prop} {a₀ : α'}
    (T : ∀ {sO k p l}, MChain sI n sO k p l → α' → Prop) (P : ∀ {s s' : List Nat} {n k p : Nat}, Mdl s n s' k p → Prop) (hx : IsBatch x B sI n X)
    (h0 : T (nil sI n) a₀)
    (hstep : ∀ {sO k p l sK j r} (c : MChain sI n sO k p l) (M : Mdl sO k sK j r) (rest : List (Mod ℝ)) (y : Tensor ℝ) (a : α') (s' : Store ℝ),
      p + r ≤ N → LGood M → P M → M.wired s' → s'.param = s.param → IsBatch y B sO k (c.Y s X) → T c a →
      (∀ v a' s'', IsBatch v B sK j (M.Y s (c.Y s X)) → T (snoc c M) a' → Still s' s'' → Run (loop rest v a') s'' Q) → Run (loop (M.m :: rest) y a) s' Q)
    (c : MChain sI n sO k p l) (hN : p ≤ N) (hg : All (fun M => LGood M) c) (hP : All P c) (hw : All (fun M => M.wired s) c) (rest : List (Mod ℝ))
    (hfin : ∀ y a s', IsBatch y B sO k (c.Y s X) → T c a → Still s s' → Run (loop rest y a) s' Q) :
    Run (loop (c.mods ++ rest) x a₀) s Q := by
  induction c generalizing rest with
  | nil => exact hfin x a₀ s hx h0 Still.refl
  | snoc c M ih =>
    simp only [mods, List.append_assoc, List.singleton_append]
    refine ih T hx h0 hstep (by omega) hg.1 hP.1 hw.1 (M.m :: rest) fun y a s' hy hT hr => ?_
    refine hstep c M rest y a s' hN hg.2 hP.2 (hg.2.wired_of hr hw.2) hr.param hy hT ?_
    intro v a' s'' hv hT' hcall
    exact hfin v a' s'' (hv.congr fun b i => by rw [Y_snoc]) hT' (hr.trans hcall)

variable {c : MChain sI n sO k p l} {Q : β → Store ℝ → Prop}

theorem run_loopL (hg : All (fun M => LGood M) c) (hw : All (fun M => M.wired s) c) (hB : 0 < B) (hx : IsBatch x B sI n X) :
    Run (Sequential.run c.mods x) s fun y s' => IsBatch y B sO k (c.Y s X) ∧ Still s s' := by
  rw [← List.append_nil c.mods]
  refine loopL (fun ms y (_ : Unit) => Sequential.run ms y) (a₀ := ()) (fun _ _ => True) (fun _ => True) hx trivial ?_ c le_rfl hg
    c.all_true hw [] ?_
  · intro sO k p l sK j r c M rest y a s' hN hM _ hMw hpar hy _ hk
    refine (hM.call hMw hB hy).bind fun v s'' ⟨hv, hcall⟩ => ?_
    exact hk v () s'' (by rwa [hM.Y_of hpar] at hv) trivial hcall
  · intro y a s' hy _ hr
    exact Run.pure ⟨hy, hr⟩

theorem jvpInput_loopL (hg : All (fun M => LGood M) c) (hf : c.fwdI) (hw : All (fun M => M.wired s) c) (hB : 0 < B) (hx : IsBatch x B sI n X)
    {u : Tensor ℝ} {U : Fin B → Fin n → ℝ} (hu : IsVec u B n U) :
    Run (Sequential.jvpInput c.mods x u) s fun y s' => IsVec y B k (fun b => c.J s X b *ᵥ U b) ∧ Still s s' := by
  rw [← List.append_nil c.mods]
  refine loopL (fun ms y a => Sequential.jvpInput ms y a) (a₀ := u) (@fun sO k p l c a => IsVec a B k fun b => c.J s X b *ᵥ U b)
    (fun M => M.fwdI) hx ?_ ?_ c le_rfl hg hf hw [] ?_
  · exact hu.congr fun b i => by simp [J, S, Sem.id]
  · intro sO k p l sK j r c M rest y a s' hN hM hfM hMw hpar hy hT hk
    refine (hM.call hMw hB hy).bind fun v s'' ⟨hv, hcall⟩ => ?_
    have hv' : IsBatch v B sK j (M.Y s'' (c.Y s X)) := by rwa [hM.Y_of hcall.param]
    refine Run.bindNeed ((hM.jvpI hfM (hM.wired_of hcall hMw) hB hy hT) (some v) ?_) fun t s3 ht h3 => ?_
    · intro v' h; cases h; exact Or.inr hv'
    · refine hk v t s3 (by rwa [hM.Y_of hpar] at hv) ?_ (hcall.trans h3)
      exact ht.congr fun b i => by
        rw [J_snoc, ← mulVec_mulVec]
        rw [hM.J_of hcall.param, hM.J_of hpar]
  · intro y a s' hy hT hr
    exact Run.pure ⟨hT, hr⟩

theorem jmpInput_loopL (hg : All (fun M => LGood M) c) (hf : c.fwdI) (hw : All (fun M => M.wired s) c) (hB : 0 < B) (hx : IsBatch x B sI n X)
    {u : Tensor ℝ} {r : Nat} {U : Fin B → Matrix (Fin n) (Fin r) ℝ} (hu : IsMat u B n r U) :
    Run (Sequential.jmpInput c.mods x u) s fun y s' => IsMat y B k r (fun b => c.J s X b * U b) ∧ Still s s' := by
  rw [← List.append_nil c.mods]
  refine loopL (fun ms y a => Sequential.jmpInput ms y a) (a₀ := u) (@fun sO k p l c a => IsMat a B k r fun b => c.J s X b * U b)
    (fun M => M.fwdI) hx ?_ ?_ c le_rfl hg hf hw [] ?_
  · exact hu.congr fun b i _ => by simp [J, S, Sem.id]
  · intro sO k p l sK j r c M rest y a s' hN hM hfM hMw hpar hy hT hk
    refine (hM.call hMw hB hy).bind fun v s'' ⟨hv, hcall⟩ => ?_
    have hv' : IsBatch v B sK j (M.Y s'' (c.Y s X)) := by rwa [hM.Y_of hcall.param]
    refine Run.bindNeed ((hM.jmpI hfM (hM.wired_of hcall hMw) hB hy hT) (some v) ?_) fun t s3 ht h3 => ?_
    · intro v' h; cases h; exact Or.inr hv'
    · refine hk v t s3 (by rwa [hM.Y_of hpar] at hv) ?_ (hcall.trans h3)
      exact ht.congr fun b i _ => by
        rw [J_snoc, Matrix.mul_assoc]
        rw [hM.J_of hcall.param, hM.J_of hpar]
  · intro y a s' hy hT hr
    exact Run.pure ⟨hT, hr⟩

theorem jvpWeight_loopL (hg : All (fun M => LGood M) c) (hf : c.fwdI) (hfW : c.fwdW) (hw : All (fun M => M.wired s) c) (hB : 0 < B)
    (hx : IsBatch x B sI n X) {u : Tensor ℝ} {U : Fin B → Fin p → ℝ} (hu : IsVec u B p U) :
    Run (Sequential.jvpWeight u c.mods x 0 none) s fun y s' =>
      OptW p (fun t => IsVec t B k fun b => c.JW s X b *ᵥ U b) y.1 ∧ y.2 = p ∧ Still s s' := by
  rw [← List.append_nil c.mods]
  refine loopL (fun ms y (a : Nat × Option (Tensor ℝ)) => Sequential.jvpWeight u ms y a.1 a.2) (a₀ := (0, none))
    (@fun sO k p' l c a => a.1 = p' ∧ ∀ h : p' ≤ p, OptW p' (fun t => IsVec t B k fun b => c.JW s X b *ᵥ fun i => U b (Fin.castLE h i)) a.2)
    (fun M => M.fwdI ∧ M.fwdW) hx ⟨rfl, fun _ => by simp [OptW]⟩ ?_ c le_rfl hg (all_and hf hfW) hw [] ?_
  · intro sO k p' l sK j r c M rest y a s' hN hM hfM hMw hpar hy hT hk
    obtain ⟨i, acc⟩ := a
    obtain ⟨hi, hacc⟩ := hT
    replace hi : i = p' := hi
    subst hi
    replace hacc := hacc (by omega)
    refine (hM.call hMw hB hy).bind fun v s'' ⟨hv, hcall⟩ => ?_
    have hv' : IsBatch v B sK j (M.Y s'' (c.Y s X)) := by rwa [hM.Y_of hcall.param]
    have hpar2 : s''.param = s.param := hcall.param.trans hpar
    have hw2 := hM.wired_of hcall hMw
    have hAcc : Run (Sequential.through acc fun a => M.m.jvp y (some v) a .input) s'' fun r s3 =>
          OptW i (fun t => IsVec t B j fun b => M.J s (c.Y s X) b *ᵥ (c.JW s X b *ᵥ fun i => U b (Fin.castLE (by omega) i))) r ∧
          Still s' s3 := by
      unfold OptW at hacc ⊢
      split_ifs at hacc ⊢ with h0
      · replace hacc : acc = none := hacc
        subst hacc
        exact Run.pure ⟨rfl, hcall⟩
      · cases acc with
        | none => exact hacc.elim
        | some t =>
          refine ((hM.jvpI hfM.1 hw2 hB hy hacc) (some v) ?_).mono fun r s3 h3 => ⟨?_, hcall.trans h3.2⟩
          · intro v' h; cases h; exact Or.inr hv'
          · rw [hM.J_of hpar2] at h3; exact h3.1
    refine hAcc.bind fun acc' s3 ⟨hacc', hcall3⟩ => ?_
    have hpar3 : s3.param = s.param := hcall3.param.trans hpar
    have hw3 := hM.wired_of hcall3 hMw
    have hv3 : IsBatch v B sK j (M.Y s3 (c.Y s X)) := by rwa [hM.Y_of hcall3.param]
    rw [hM.nParams]
    refine Run.bindLift (slice_vec (lo := i) (m := r) hu hN) fun vec hvec => ?_
    refine ((hM.jvpW hfM.1 hfM.2 hw3 hB hy hvec) (some v) ?_).bind fun fl s4 ⟨hfl, h4⟩ => ?_
    · intro v' h; cases h; exact Or.inr hv3
    rw [hM.JW_of hpar3] at hfl
    refine Run.bindLift (accum_vec hacc' hfl ?_ ?_) fun acc4 h => ?_
    · intro h0; funext b; rw [mulVec_zero_dim h0, mulVec_zero]; rfl
    · intro h0; funext b; rw [mulVec_zero_dim h0]; rfl
    refine hk v (i + r, acc4) s4 (by rwa [hM.Y_of hpar] at hv) ⟨rfl, fun _ => ?_⟩ (hcall3.trans h4)
    refine OptW.mono h fun t ht => ht.congr fun b m => ?_
    rw [JW_snoc, hcat_mulVec, ← mulVec_mulVec]
    rfl
  · intro y a s' hy hT hr
    refine Run.pure ⟨?_, hT.1, hr⟩
    exact hT.2 le_rfl

theorem jmpWeight_loopL (hg : All (fun M => LGood M) c) (hf : c.fwdI) (hfW : c.fwdW) (hw : All (fun M => M.wired s) c) (hB : 0 < B)
    (hx : IsBatch x B sI n X) {u : Tensor ℝ} {m : Nat} {U : Fin B → Matrix (Fin p) (Fin m) ℝ} (hu : IsMat u B p m U) :
    Run (Sequential.jmpWeight u c.mods x 0 none) s fun y s' =>
      OptW p (fun t => IsMat t B k m fun b => c.JW s X b * U b) y.1 ∧ y.2 = p ∧ Still s s' := by
  rw [← List.append_nil c.mods]
  refine loopL (fun ms y (a : Nat × Option (Tensor ℝ)) => Sequential.jmpWeight u ms y a.1 a.2) (a₀ := (0, none))
    (@fun sO k p' l c a => a.1 = p' ∧ ∀ h : p' ≤ p, OptW p' (fun t => IsMat t B k m fun b => c.JW s X b * Matrix.of fun i => U b (Fin.castLE h i)) a.2)
    (fun M => M.fwdI ∧ M.fwdW) hx ⟨rfl, fun _ => by simp [OptW]⟩ ?_ c le_rfl hg (all_and hf hfW) hw [] ?_
  · intro sO k p' l sK j r c M rest y a s' hN hM hfM hMw hpar hy hT hk
    obtain ⟨i, acc⟩ := a
    obtain ⟨hi, hacc⟩ := hT
    replace hi : i = p' := hi
    subst hi
    replace hacc := hacc (by omega)
    refine (hM.call hMw hB hy).bind fun v s'' ⟨hv, hcall⟩ => ?_
    have hv' : IsBatch v B sK j (M.Y s'' (c.Y s X)) := by rwa [hM.Y_of hcall.param]
    have hpar2 : s''.param = s.param := hcall.param.trans hpar
    have hw2 := hM.wired_of hcall hMw
    have hAcc : Run (Sequential.through acc fun a => M.m.jmp y (some v) (some a) .input) s'' fun r s3 =>
          OptW i (fun t => IsMat t B j m fun b => M.J s (c.Y s X) b * (c.JW s X b * Matrix.of fun i => U b (Fin.castLE (by omega) i))) r ∧
          Still s' s3 := by
      unfold OptW at hacc ⊢
      split_ifs at hacc ⊢ with h0
      · replace hacc : acc = none := hacc
        subst hacc
        exact Run.pure ⟨rfl, hcall⟩
      · cases acc with
        | none => exact hacc.elim
        | some t =>
          refine ((hM.jmpI hfM.1 hw2 hB hy hacc) (some v) ?_).mono fun r s3 h3 => ⟨?_, hcall.trans h3.2⟩
          · intro v' h; cases h; exact Or.inr hv'
          · rw [hM.J_of hpar2] at h3; exact h3.1
    refine hAcc.bind fun acc' s3 ⟨hacc', hcall3⟩ => ?_
    have hpar3 : s3.param = s.param := hcall3.param.trans hpar
    have hw3 := hM.wired_of hcall3 hMw
    have hv3 : IsBatch v B sK j (M.Y s3 (c.Y s X)) := by rwa [hM.Y_of hcall3.param]
    rw [hM.nParams]
    refine Run.bindLift (slice_rows (lo := i) (q := r) hu hN) fun vec hvec => ?_
    refine ((hM.jmpW hfM.1 hfM.2 hw3 hB hy hvec) (some v) ?_).bind fun fl s4 ⟨hfl, h4⟩ => ?_
    · intro v' h; cases h; exact Or.inr hv3
    rw [hM.JW_of hpar3] at hfl
    refine Run.bindLift (accum_mat hacc' hfl ?_ ?_) fun acc4 h => ?_
    · intro h0; funext b; rw [mul_zero_dim h0, Matrix.mul_zero]; rfl
    · intro h0; funext b; exact mul_zero_dim h0 _ _
    refine hk v (i + r, acc4) s4 (by rwa [hM.Y_of hpar] at hv) ⟨rfl, fun _ => ?_⟩ (hcall3.trans h4)
    refine OptW.mono h fun t ht => ht.congr fun b m _ => ?_
    rw [JW_snoc, hcat_mul, Matrix.mul_assoc]
    rfl
  · intro y a s' hy hT hr
    refine Run.pure ⟨?_, hT.1, hr⟩
    exact hT.2 le_rfl

end loops

theorem all_mono {P R : ∀ {s s' : List Nat} {n k p : Nat}, Mdl s n s' k p → Prop} {c : MChain sI n sO k p l} (h : All P c)
    (hPR : ∀ {s s' : List Nat} {n k p : Nat} (M : Mdl s n s' k p), P M → R M) : All R c := by
  induction c with
  | nil => trivial
  | snoc c M ih => exact ⟨ih h.1, hPR M h.2⟩

end MChain

section containers
variable {sI sO : List Nat} {n k p l : Nat} {c : MChain sI n sO k p l}

theorem lgood_seq (q : Nat) (hn : size sI = n) (hk : size sO = k) (hg : c.All fun M => LGood M) :
    LGood ((seqMdl q c).loosen fun s => c.All fun M => M.wired s) where
  hn := hn
  hk := hk
  nParams := MChain.nParamsL hg
  hooksOk := fun h => h.2
  wired_of := fun {s s'} hs hw => ⟨MChain.all_mono (MChain.all_and hg hw.1) (R := fun M => M.wired s') fun M h => h.1.wired_of hs h.2, hw.2.still hs⟩
  w_of := fun e => MChain.w_still hg e
  forward := @fun s B X x hw hB hx => by
    let s1 : Store ℝ := { s with fmaps := fun j => if j = q then some [x] else s.fmaps j }
    have h1 : Still s s1 := ⟨rfl, rfl, fun i hi => by
      show Option.isSome (if i = q then _ else _) = true
      split_ifs
      · rfl
      · exact hi⟩
    have hw1 : c.All fun M => M.wired s1 := MChain.all_mono (MChain.all_and hg hw.1) (R := fun M => M.wired s1) fun M h => h.1.wired_of h1 h.2
    refine Run.bind (P := fun _ s' => s' = s1) ⟨(), s1, rfl, rfl⟩ fun _ s' hs' => ?_
    subst hs'
    refine (MChain.run_loopL hg hw1 hB hx).mono fun y s2 ⟨hy, h2⟩ => ⟨?_, h1.trans h2⟩
    exact hy.congr fun b i => by
      show c.S.f (c.w s1) (X b) i = c.S.f (c.w s) (X b) i
      rw [MChain.w_still hg h1.param]
  jvpI := fun hf s B X x u U hw hB hx hu val _ =>
    Run.bindAssert rfl ((MChain.jvpInput_loopL hg hf hw.1 hB hx hu).bind fun t s' ⟨ht, hr⟩ => Run.pure ⟨ht, hr⟩)
  jvpW := fun hf hfW s B X x u U hw hB hx hu val _ =>
    Run.bindAssert rfl ((MChain.jvpWeight_loopL hg hf hfW hw.1 hB hx hu).bind fun t s' ⟨ht, hi, hr⟩ => by
      refine Run.bindAssert ?_ (Run.pure ⟨ht, hr⟩)
      simp only [hi, MChain.nParamsL hg, decide_true])
  jmpI := fun hf s B X x r A Z hw hB hx hA val _ =>
    Run.bindAssert rfl ((MChain.jmpInput_loopL hg hf hw.1 hB hx hA).bind fun t s' ⟨ht, hr⟩ => Run.pure ⟨ht, hr⟩)
  jmpW := fun hf hfW s B X x r A Z hw hB hx hA val _ =>
    Run.bindAssert rfl ((MChain.jmpWeight_loopL hg hf hfW hw.1 hB hx hA).bind fun t s' ⟨ht, hi, hr⟩ => by
      refine Run.bindAssert ?_ (Run.pure ⟨ht, hr⟩)
      simp only [hi, MChain.nParamsL hg, decide_true])


theorem Mdl.FwdL.skip {a c : Nat} {r : List Nat} {n k p : Nat} {id : Nat} {F : Mdl (a :: r) n (c :: r) k p} {P : Store ℝ → Prop} {s : Store ℝ} {B : Nat}
    {X : Fin B → Fin n → ℝ} {β γ : Type} {b l0 : Nat} {xb xl : Res Nat} (h1 : xb = .ok b) (h2 : xl = .ok l0) (hany : F.anyVal)
    {call : Option (Tensor ℝ) → Prog ℝ β} {body : Nat → Nat → β → Prog ℝ γ} {P' : β → Prop} {post : γ → Prop} (h : F.FwdL s X call P')
    (hb : ∀ o s', P' o → Run (body b l0 o) s' fun y s'' => post y ∧ s'' = s') :
    ((skipMdl id F).loosen P).FwdL s X (fun val => do
      let b ← (liftM xb : Prog ℝ Nat)
      let l ← (liftM xl : Prog ℝ Nat)
      let tv ← (liftM (SkipConnection.tailVal val l) : Prog ℝ _)
      let o ← call tv
      body b l o) post := by
  intro val hv
  refine Run.bindEq h1 (Run.bindEq h2 ?_)
  have key : ∀ tv, Run (call tv) s (fun r s' => P' r ∧ Still s s') → Run (call tv >>= body b l0) s fun y s' => post y ∧ Still s s' := fun tv ht =>
    ht.bind fun o s' ⟨ho, hs⟩ => (hb o s' ho).mono fun y s'' ⟨hy, e⟩ => ⟨hy, e ▸ hs⟩
  cases val with
  | none => exact key none (h none (by simp))
  | some v =>
    obtain ⟨t, ht⟩ := tail_some l0 ((hv v rfl).resolve_left fun h => h).1
    exact Run.bindEq ht (key (some t) (h (some t) fun _ _ => Or.inl hany))

theorem lgood_skip {a c : Nat} {r : List Nat} {n k p : Nat} {id : Nat} {F : Mdl (a :: r) n (c :: r) k p} (hF : LGood F) (hany : F.anyVal) :
    LGood ((skipMdl id F).loosen F.wired) where
  hn := hF.hn
  hk := by
    have h1 := hF.hn
    have h2 := hF.hk
    simp only [size_cons] at *
    rw [Nat.add_mul, h1, h2]
  nParams := hF.nParams
  hooksOk := fun h => h.2
  wired_of := fun hs hw => ⟨hF.wired_of hs hw.1, hw.2.still hs⟩
  w_of := hF.w_of
  forward := fun hw hB hx => (hF.call hw.1 hB hx).bind fun v s' ⟨hv, hs⟩ =>
    Run.lift (cat2_batch hx hv hF.hn hF.hk) fun t ht => ⟨ht, hs⟩
  jvpI := fun hf s B X x u U hw hB hx hu =>
    Mdl.FwdL.skip hx.dim0 (hx.numel0 hB hF.hn) hany (hF.jvpI hf hw.1 hB hx hu) fun o s' ho =>
      Skip.need ho fun t ht => Run.bindLift (cat2_vec hu ht) fun y hy => Run.pure ⟨hy.congr fun b i => by
        show _ = (vcat 1 (F.J s X b) *ᵥ U b) i
        rw [vcat_mulVec, one_mulVec], rfl⟩
  jvpW := fun hf hpW s B X x u U hw hB hx hu => by
    have hz : IsBatch (zerosLike x) B (a :: r) n fun _ _ => 0 := ⟨hx.1, fun _ _ => rfl⟩
    refine Mdl.FwdL.skip hx.dim0 (hx.numel0 hB hF.hn) hany (hF.jvpW hf hpW.2 hw.1 hB hx hu) fun o s' ho => ?_
    refine Run.bindLift (reshape_flat hz hF.hn) fun z hz => Skip.need (Skip.optW_some hpW.1 ho) fun t ht => Run.bindLift (cat2_vec hz ht) fun y hy => Run.pure ⟨?_, rfl⟩
    simp only [OptW, Nat.ne_of_gt hpW.1, if_false]
    refine hy.congr fun b i => ?_
    show _ = (vcat 0 (F.JW s X b) *ᵥ U b) i
    rw [vcat_mulVec, zero_mulVec]; rfl
  jmpI := fun hf s B X x r A Z hw hB hx hA =>
    Mdl.FwdL.skip hx.dim0 (hx.numel0 hB hF.hn) hany (hF.jmpI hf hw.1 hB hx hA) fun o s' ho =>
      Skip.need ho fun t ht => Run.bindLift (cat2_rows hA ht) fun y hy => Run.pure ⟨hy.congr fun b i j => by
        show _ = (vcat 1 (F.J s X b) * Z b) i j
        rw [vcat_mul, Matrix.one_mul], rfl⟩
  jmpW := fun hf hpW s B X x r A Z hw hB hx hA => by
    refine Mdl.FwdL.skip hx.dim0 (hx.numel0 hB hF.hn) hany (hF.jmpW hf hpW.2 hw.1 hB hx hA) fun o s' ho => Run.bindEq hA.dim2 ?_
    refine Skip.need (Skip.optW_some hpW.1 ho) fun t ht => Run.bindLift (cat2_rows zeros_mat ht) fun y hy => Run.pure ⟨?_, rfl⟩
    simp only [OptW, Nat.ne_of_gt hpW.1, if_false]
    refine hy.congr fun b i j => ?_
    show _ = (vcat 0 (F.JW s X b) * Z b) i j
    rw [vcat_mul, Matrix.zero_mul]

end containers

mutual
/-- a network as a module with the loose contract -/
noncomputable def Net.lmdl : {s s' : List Nat} → {n k p : Nat} → Net s n s' k p → Mdl s n s' k p
  | _, _, _, _, _, .seq id c => (seqMdl id c.lchain).loosen fun st => c.lchain.All fun M => M.wired st
  | _, _, _, _, _, .skip id fid ch =>
    (skipMdl id ((seqMdl fid ch.lchain).loosen fun st => ch.lchain.All fun M => M.wired st)).loosen
      ((seqMdl fid ch.lchain).loosen fun st => ch.lchain.All fun M => M.wired st).wired
  | _, _, _, _, _, N@(.linear ..) => N.mdl.loosen N.mdl.wired
  | _, _, _, _, _, N@(.act ..) => N.mdl.loosen N.mdl.wired
  | _, _, _, _, _, N@(.flatten ..) => N.mdl.loosen N.mdl.wired
  | _, _, _, _, _, N@(.reshape ..) => N.mdl.loosen N.mdl.wired
  | _, _, _, _, _, N@(.l2norm ..) => N.mdl.loosen N.mdl.wired
  | _, _, _, _, _, N@(.conv ..) => N.mdl.loosen N.mdl.wired
  | _, _, _, _, _, N@(.upsample ..) => N.mdl.loosen N.mdl.wired
  | _, _, _, _, _, N@(.maxpool ..) => N.mdl.loosen N.mdl.wired
noncomputable def Chain.lchain : {s s' : List Nat} → {n k p l : Nat} → Chain s n s' k p l → MChain s n s' k p l
  | _, _, _, _, _, _, .nil s n _ _ => .nil s n
  | _, _, _, _, _, _, .snoc c m => .snoc c.lchain m.lmdl
end

mutual
theorem Net.lmdl_eqs : {s s' : List Nat} → {n k p : Nat} → (N : Net s n s' k p) →
    N.lmdl.m = N.mod ∧ N.lmdl.S = N.sem ∧ N.lmdl.w = N.w ∧ (N.lmdl.fwdI ↔ N.FwdI) ∧ (N.lmdl.fwdW ↔ N.FwdW)
  | _, _, _, _, _, .linear .. => by simp only [Net.lmdl]; exact ⟨Net.mdl_m _, Net.mdl_S _, Net.mdl_w _, Net.mdl_fwdI _, Net.mdl_fwdW _⟩
  | _, _, _, _, _, .act .. => by simp only [Net.lmdl]; exact ⟨Net.mdl_m _, Net.mdl_S _, Net.mdl_w _, Net.mdl_fwdI _, Net.mdl_fwdW _⟩
  | _, _, _, _, _, .flatten .. => by simp only [Net.lmdl]; exact ⟨Net.mdl_m _, Net.mdl_S _, Net.mdl_w _, Net.mdl_fwdI _, Net.mdl_fwdW _⟩
  | _, _, _, _, _, .reshape .. => by simp only [Net.lmdl]; exact ⟨Net.mdl_m _, Net.mdl_S _, Net.mdl_w _, Net.mdl_fwdI _, Net.mdl_fwdW _⟩
  | _, _, _, _, _, .l2norm .. => by simp only [Net.lmdl]; exact ⟨Net.mdl_m _, Net.mdl_S _, Net.mdl_w _, Net.mdl_fwdI _, Net.mdl_fwdW _⟩
  | _, _, _, _, _, .conv .. => by simp only [Net.lmdl]; exact ⟨Net.mdl_m _, Net.mdl_S _, Net.mdl_w _, Net.mdl_fwdI _, Net.mdl_fwdW _⟩
  | _, _, _, _, _, .upsample .. => by simp only [Net.lmdl]; exact ⟨Net.mdl_m _, Net.mdl_S _, Net.mdl_w _, Net.mdl_fwdI _, Net.mdl_fwdW _⟩
  | _, _, _, _, _, .maxpool .. => by simp only [Net.lmdl]; exact ⟨Net.mdl_m _, Net.mdl_S _, Net.mdl_w _, Net.mdl_fwdI _, Net.mdl_fwdW _⟩
  | _, _, _, _, _, .seq id c => by
    obtain ⟨h1, h2, h3, h4, h5⟩ := c.lchain_eqs
    simp only [Net.lmdl, Mdl.loosen, seqMdl, Net.mod, Net.sem, Net.FwdI, Net.FwdW, h1, h2, h3, h4, h5, true_and, and_true]
    funext st; simp only [Net.w]
  | _, _, _, _, _, .skip id fid ch => by
    obtain ⟨h1, h2, h3, h4, h5⟩ := ch.lchain_eqs
    simp only [Net.lmdl, Mdl.loosen, skipMdl, seqMdl, Net.mod, Net.sem, Net.FwdI, Net.FwdW, h1, h2, h3, h4, h5, true_and, and_true]
    funext st; simp only [Net.w]
theorem Chain.lchain_eqs : {s s' : List Nat} → {n k p l : Nat} → (c : Chain s n s' k p l) →
    c.lchain.mods = c.mods ∧ c.lchain.S = c.sem ∧ c.lchain.w = c.w ∧ (c.lchain.fwdI ↔ c.FwdI) ∧ (c.lchain.fwdW ↔ c.FwdW)
  | _, _, _, _, _, _, .nil _ _ _ _ => by
    simp only [Chain.lchain, MChain.mods, Chain.mods, MChain.S, Chain.sem, MChain.fwdI, MChain.fwdW, MChain.All, Chain.FwdI, Chain.FwdW, true_and, and_true]
    funext st; simp only [MChain.w, Chain.w]
  | _, _, _, _, _, _, .snoc c m => by
    obtain ⟨h1, h2, h3, h4, h5⟩ := c.lchain_eqs
    obtain ⟨g1, g2, g3, g4, g5⟩ := m.lmdl_eqs
    simp only [MChain.fwdI] at h4
    simp only [MChain.fwdW] at h5
    simp only [Chain.lchain, MChain.mods, Chain.mods, MChain.S, Chain.sem, MChain.fwdI, MChain.fwdW, MChain.All, Chain.FwdI, Chain.FwdW, true_and, and_true,
      h1, h2, h4, h5, g1, g2, g4, g5]
    funext st; simp only [MChain.w, Chain.w, h3, g3]
end

mutual
theorem Net.lmdl_wired : {s s' : List Nat} → {n k p : Nat} → (N : Net s n s' k p) → (st : Store ℝ) → N.Shapes st → HooksOk st → N.lmdl.wired st
  | _, _, _, _, _, .linear .., st, h, ho => by simp only [Net.lmdl]; exact ⟨(Net.mdl_wired _ st).2 (by simpa only [Net.Wired, Net.Shapes] using h), ho⟩
  | _, _, _, _, _, .act .., st, h, ho => by simp only [Net.lmdl]; exact ⟨(Net.mdl_wired _ st).2 (by simpa only [Net.Wired, Net.Shapes] using h), ho⟩
  | _, _, _, _, _, .flatten .., st, h, ho => by simp only [Net.lmdl]; exact ⟨(Net.mdl_wired _ st).2 (by simpa only [Net.Wired, Net.Shapes] using h), ho⟩
  | _, _, _, _, _, .reshape .., st, h, ho => by simp only [Net.lmdl]; exact ⟨(Net.mdl_wired _ st).2 (by simpa only [Net.Wired, Net.Shapes] using h), ho⟩
  | _, _, _, _, _, .l2norm .., st, h, ho => by simp only [Net.lmdl]; exact ⟨(Net.mdl_wired _ st).2 (by simpa only [Net.Wired, Net.Shapes] using h), ho⟩
  | _, _, _, _, _, .conv .., st, h, ho => by simp only [Net.lmdl]; exact ⟨(Net.mdl_wired _ st).2 (by simpa only [Net.Wired, Net.Shapes] using h), ho⟩
  | _, _, _, _, _, .upsample .., st, h, ho => by simp only [Net.lmdl]; exact ⟨(Net.mdl_wired _ st).2 (by simpa only [Net.Wired, Net.Shapes] using h), ho⟩
  | _, _, _, _, _, .maxpool .., st, h, ho => by simp only [Net.lmdl]; exact ⟨(Net.mdl_wired _ st).2 (by simpa only [Net.Wired, Net.Shapes] using h), ho⟩
  | _, _, _, _, _, .seq id c, st, h, ho => by simp only [Net.lmdl]; simp only [Net.Shapes] at h; exact ⟨c.lchain_wired st h ho, ho⟩
  | _, _, _, _, _, .skip id fid ch, st, h, ho => by simp only [Net.lmdl]; simp only [Net.Shapes] at h; exact ⟨⟨ch.lchain_wired st h ho, ho⟩, ho⟩
theorem Chain.lchain_wired : {s s' : List Nat} → {n k p l : Nat} → (c : Chain s n s' k p l) → (st : Store ℝ) → c.Shapes st → HooksOk st →
    c.lchain.All fun M => M.wired st
  | _, _, _, _, _, _, .nil _ _ _ _, st, _, _ => by simp only [Chain.lchain, MChain.All]
  | _, _, _, _, _, _, .snoc c m, st, h, ho => by
    simp only [Chain.Shapes] at h
    simp only [Chain.lchain, MChain.All]
    exact ⟨c.lchain_wired st h.1 ho, m.lmdl_wired st h.2 ho⟩
end

mutual
theorem Net.lgood : {s s' : List Nat} → {n k p : Nat} → (N : Net s n s' k p) → LGood N.lmdl
  | _, _, _, _, _, .linear .. => by
    simp only [Net.lmdl]
    refine Good.lgood (Net.good _ (by simp [Net.ids])) fun {s s'} e => ?_
    simp only [Net.mdl_wired, Net.Wired, e]; exact id
  | _, _, _, _, _, .act .. => by
    simp only [Net.lmdl]
    refine Good.lgood (Net.good _ (by simp [Net.ids])) fun {s s'} e => ?_
    simp only [Net.mdl_wired, Net.Wired]; exact id
  | _, _, _, _, _, .flatten .. => by
    simp only [Net.lmdl]
    refine Good.lgood (Net.good _ (by simp [Net.ids])) fun {s s'} e => ?_
    simp only [Net.mdl_wired, Net.Wired]; exact id
  | _, _, _, _, _, .reshape .. => by
    simp only [Net.lmdl]
    refine Good.lgood (Net.good _ (by simp [Net.ids])) fun {s s'} e => ?_
    simp only [Net.mdl_wired, Net.Wired]; exact id
  | _, _, _, _, _, .l2norm .. => by
    simp only [Net.lmdl]
    refine Good.lgood (Net.good _ (by simp [Net.ids])) fun {s s'} e => ?_
    simp only [Net.mdl_wired, Net.Wired]; exact id
  | _, _, _, _, _, .conv .. => by
    simp only [Net.lmdl]
    refine Good.lgood (Net.good _ (by simp [Net.ids])) fun {s s'} e => ?_
    simp only [Net.mdl_wired, Net.Wired, e]; exact id
  | _, _, _, _, _, .upsample .. => by
    simp only [Net.lmdl]
    refine Good.lgood (Net.good _ (by simp [Net.ids])) fun {s s'} e => ?_
    simp only [Net.mdl_wired, Net.Wired]; exact id
  | _, _, _, _, _, .maxpool .. => by
    simp only [Net.lmdl]
    refine Good.lgood (Net.good _ (by simp [Net.ids])) fun {s s'} e => ?_
    simp only [Net.mdl_wired, Net.Wired]; exact id
  | _, _, _, _, _, .seq id c => by
    simp only [Net.lmdl]
    obtain ⟨h1, h2, h3⟩ := c.lgood
    exact lgood_seq id h1 h2 h3
  | _, _, _, _, _, .skip id fid ch => by
    simp only [Net.lmdl]
    obtain ⟨h1, h2, h3⟩ := ch.lgood
    exact lgood_skip (lgood_seq fid h1 h2 h3) trivial
theorem Chain.lgood : {s s' : List Nat} → {n k p l : Nat} → (c : Chain s n s' k p l) → size s = n ∧ size s' = k ∧ c.lchain.All fun M => LGood M
  | _, _, _, _, _, _, .nil _ _ hs hn => by simp only [Chain.lchain, MChain.All]; exact ⟨hs, hs, trivial⟩
  | _, _, _, _, _, _, .snoc c m => by
    simp only [Chain.lchain, MChain.All]
    obtain ⟨h1, h2, h3⟩ := c.lgood
    exact ⟨h1, m.lgood.hk, h3, m.lgood⟩
end

end NNJ
