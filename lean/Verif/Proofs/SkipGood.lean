import Verif.Proofs.SeqFwd
import Verif.Proofs.LeafDiag
import Verif.Model.SkipConnection

/-! The contract of SkipConnection. -/

namespace NNJ
open Tensor Matrix

theorem Run.bindEq {β γ : Type} {s : Store ℝ} {p : Res β} {f : β → Prog ℝ γ} {Q : γ → Store ℝ → Prop} {b : β} (hp : p = .ok b)
    (h : Run (f b) s Q) : Run ((liftM p : Prog ℝ β) >>= f) s Q := by subst hp; exact h

theorem IsBatch.numel0 {t : Tensor ℝ} {B n : Nat} {s : List Nat} {X : Fin B → Fin n → ℝ} (h : IsBatch t B s n X) (hB : 0 < B)
    (hs : size s = n) : t.numel0 = .ok n := by
  obtain ⟨B, rfl⟩ : ∃ B', B = B' + 1 := ⟨B - 1, by omega⟩
  simp [Tensor.numel0, h.1, hs]

/-! ### calls that wrap calls -/

section wrap
variable {sI sO : List Nat} {n k p : Nat} {M : Mdl sI n sO k p} {s : Store ℝ} {B : Nat} {X : Fin B → Fin n → ℝ} {β γ : Type}

theorem Mdl.Back.lift {a : Res β} {P : β → Prop} {f : Option (Tensor ℝ) → β → Prog ℝ γ} {post : γ → Prop} (ha : Ret a P)
    (h : ∀ b, P b → M.Back s X (fun v => f v b) post) : M.Back s X (fun v => (liftM a : Prog ℝ β) >>= f v) post := by
  obtain ⟨b, rfl, hb⟩ := ha
  exact h b hb

theorem Mdl.Back.eq {a : Res β} {b : β} {f : Option (Tensor ℝ) → β → Prog ℝ γ} {post : γ → Prop} (ha : a = .ok b)
    (h : M.Back s X (fun v => f v b) post) : M.Back s X (fun v => (liftM a : Prog ℝ β) >>= f v) post := by
  subst ha; exact h

theorem Mdl.Back.then {call : Option (Tensor ℝ) → Prog ℝ β} {P : β → Prop} {g : β → Prog ℝ γ} {post : γ → Prop} (h : M.Back s X call P)
    (hg : ∀ r s', P r → Run (g r) s' fun o s'' => post o ∧ s'' = s') : M.Back s X (fun v => call v >>= g) post := by
  refine ⟨fun v hv hc => (h.1 v hv hc).bind fun r s' ⟨hr, hs⟩ => (hg r s' hr).mono fun o s'' ⟨ho, hs'⟩ => ⟨ho, hs'.trans hs⟩,
    h.2.bind fun r s' ⟨hr, hs, hc⟩ => (hg r s' hr).mono fun o s'' ⟨ho, hs'⟩ => ⟨ho, by subst hs'; exact ⟨hs, hc⟩⟩⟩

theorem Mdl.BackW.lift {a : Res β} {P : β → Prop} {f : Option (Tensor ℝ) → β → Prog ℝ γ} {post : γ → Prop} (ha : Ret a P)
    (h : ∀ b, P b → M.BackW s X (fun v => f v b) post) : M.BackW s X (fun v => (liftM a : Prog ℝ β) >>= f v) post := by
  obtain ⟨b, rfl, hb⟩ := ha
  exact h b hb

theorem Mdl.BackW.eq {a : Res β} {b : β} {f : Option (Tensor ℝ) → β → Prog ℝ γ} {post : γ → Prop} (ha : a = .ok b)
    (h : M.BackW s X (fun v => f v b) post) : M.BackW s X (fun v => (liftM a : Prog ℝ β) >>= f v) post := by
  subst ha; exact h

theorem Mdl.BackW.then {call : Option (Tensor ℝ) → Prog ℝ β} {P : β → Prop} {g : β → Prog ℝ γ} {post : γ → Prop} (h : M.BackW s X call P)
    (hg : ∀ r s', P r → Run (g r) s' fun o s'' => post o ∧ s'' = s') : M.BackW s X (fun v => call v >>= g) post := by
  refine ⟨fun v hv hc => (h.1 v hv hc).bind fun r s' ⟨hr, hs⟩ => (hg r s' hr).mono fun o s'' ⟨ho, hs'⟩ => ⟨ho, hs'.trans hs⟩,
    h.2.bind fun r s' ⟨hr, hs, hc⟩ => (hg r s' hr).mono fun o s'' ⟨ho, hs'⟩ => ⟨ho, by subst hs'; exact ⟨hs, hc⟩⟩⟩

theorem Mdl.Fwd.eq {a : Res β} {b : β} {f : Option (Tensor ℝ) → β → Prog ℝ γ} {post : γ → Prop} (ha : a = .ok b)
    (h : M.Fwd s X (fun v => f v b) post) : M.Fwd s X (fun v => (liftM a : Prog ℝ β) >>= f v) post := by
  subst ha; exact h

theorem Mdl.Fwd.then {call : Option (Tensor ℝ) → Prog ℝ β} {P : β → Prop} {g : β → Prog ℝ γ} {post : γ → Prop} (h : M.Fwd s X call P)
    (hg : ∀ r s', P r → Run (g r) s' fun o s'' => post o ∧ s'' = s') : M.Fwd s X (fun v => call v >>= g) post :=
  fun v hv => (h v hv).bind fun r s' ⟨hr, hs, hc⟩ => (hg r s' hr).mono fun o s'' ⟨ho, hs'⟩ => ⟨ho, by subst hs'; exact ⟨hs, hc⟩⟩

end wrap

/-- a SkipConnection with its semantics -/
noncomputable def skipMdl {a c : Nat} {r : List Nat} {n k p : Nat} (id : Nat) (F : Mdl (a :: r) n (c :: r) k p) :
    Mdl (a :: r) n ((a + c) :: r) (n + k) p where
  m := SkipConnection.mod id F.m
  S := F.S.skip
  ids := id :: F.ids
  wired s := F.wired s ∧ s.hooks F.m.id = []
  w := F.w
  cache := F.cache
  anyVal := False
  blocks := F.blocks
  arg := F.arg
  fwdI := F.fwdI
  fwdW := 0 < p ∧ F.fwdW
  pushW := F.pushW

/-! ### matrices with two blocks of rows -/

section blocks
variable {n k p q m : Nat}

/-- the off-diagonal blocks, and blocks of columns -/
def urB (Z : Matrix (Fin (p + q)) (Fin (p + q)) ℝ) : Matrix (Fin p) (Fin q) ℝ := fun i j => Z (Fin.castAdd q i) (Fin.natAdd p j)
def llB (Z : Matrix (Fin (p + q)) (Fin (p + q)) ℝ) : Matrix (Fin q) (Fin p) ℝ := fun i j => Z (Fin.natAdd p i) (Fin.castAdd q j)
def colsL (Z : Matrix (Fin m) (Fin (p + q)) ℝ) : Matrix (Fin m) (Fin p) ℝ := fun i j => Z i (Fin.castAdd q j)
def colsR (Z : Matrix (Fin m) (Fin (p + q)) ℝ) : Matrix (Fin m) (Fin q) ℝ := fun i j => Z i (Fin.natAdd p j)

theorem mul_vcat (Z : Matrix (Fin m) (Fin (p + q)) ℝ) (A : Matrix (Fin p) (Fin n) ℝ) (C : Matrix (Fin q) (Fin n) ℝ) :
    Z * vcat A C = colsL Z * A + colsR Z * C := by
  ext i j
  simp [mul_apply, Fin.sum_univ_add, colsL, colsR]

theorem vecMul_vcat (u : Fin (p + q) → ℝ) (A : Matrix (Fin p) (Fin n) ℝ) (C : Matrix (Fin q) (Fin n) ℝ) :
    u ᵥ* vcat A C = wl u ᵥ* A + wr u ᵥ* C := by
  funext i
  simp [vecMul, dotProduct, Fin.sum_univ_add, wl, wr]

theorem vcat_mulVec (A : Matrix (Fin p) (Fin n) ℝ) (C : Matrix (Fin q) (Fin n) ℝ) (v : Fin n → ℝ) :
    vcat A C *ᵥ v = Fin.append (A *ᵥ v) (C *ᵥ v) := by
  funext i
  refine Fin.addCases (fun i => ?_) (fun i => ?_) i <;> simp [mulVec, dotProduct]

theorem sandwichT_vcat (A : Matrix (Fin p) (Fin n) ℝ) (C : Matrix (Fin q) (Fin n) ℝ) (Z : Matrix (Fin (p + q)) (Fin (p + q)) ℝ) :
    (vcat A C)ᵀ * Z * vcat A C = Cᵀ * lrB Z * C + Aᵀ * urB Z * C + Cᵀ * llB Z * A + Aᵀ * ulB Z * A := by
  have h1 : colsL (Aᵀ * rowsL Z + Cᵀ * rowsR Z) = Aᵀ * ulB Z + Cᵀ * llB Z := by
    ext i j; simp [colsL, mul_apply, rowsL, rowsR, ulB, llB]
  have h2 : colsR (Aᵀ * rowsL Z + Cᵀ * rowsR Z) = Aᵀ * urB Z + Cᵀ * lrB Z := by
    ext i j; simp [colsR, mul_apply, rowsL, rowsR, urB, lrB]
  rw [transpose_vcat, hcat_mul, mul_vcat, h1, h2, Matrix.add_mul, Matrix.add_mul]
  abel

theorem sandwich_vcat (A : Matrix (Fin p) (Fin n) ℝ) (C : Matrix (Fin q) (Fin n) ℝ) (Z : Matrix (Fin n) (Fin n) ℝ) :
    vcat A C * Z * (vcat A C)ᵀ = vcat (hcat (A * Z * Aᵀ) (A * Z * Cᵀ)) (hcat (C * Z * Aᵀ) (C * Z * Cᵀ)) := by
  rw [vcat_mul, transpose_vcat, mul_hcat, vcat_mul, vcat_mul]
  ext i j
  refine Fin.addCases (fun i => ?_) (fun i => ?_) i <;> refine Fin.addCases (fun j => ?_) (fun j => ?_) j <;> simp

theorem diag_vcat (A : Matrix (Fin p) (Fin p) ℝ) (C : Matrix (Fin p) (Fin q) ℝ) (D : Matrix (Fin q) (Fin p) ℝ) (E : Matrix (Fin q) (Fin q) ℝ) :
    diag (vcat (hcat A C) (hcat D E)) = Fin.append (diag A) (diag E) := by
  funext i
  refine Fin.addCases (fun i => ?_) (fun i => ?_) i <;> simp [diag_apply]

theorem ulB_diag (d : Fin (p + q) → ℝ) : ulB (diagonal d) = diagonal (wl d) := by
  ext i j; simp [ulB, diagonal, wl, Fin.ext_iff]
theorem lrB_diag (d : Fin (p + q) → ℝ) : lrB (diagonal d) = diagonal (wr d) := by
  ext i j; simp [lrB, diagonal, wr, Fin.ext_iff]
theorem urB_diag (d : Fin (p + q) → ℝ) : urB (diagonal d) = 0 := by
  ext i j
  have : Fin.castAdd q i ≠ Fin.natAdd p j := fun h => by have := congrArg Fin.val h; simp at this; omega
  simp [urB, diagonal, this]
theorem llB_diag (d : Fin (p + q) → ℝ) : llB (diagonal d) = 0 := by
  ext i j
  have : Fin.natAdd p i ≠ Fin.castAdd q j := fun h => by have := congrArg Fin.val h; simp at this; omega
  simp [llB, diagonal, this]

variable {B : Nat}

theorem slice_wl {t : Tensor ℝ} {U : Fin B → Fin (p + q) → ℝ} (h : IsVec t B (p + q) U) :
    Ret (t.slice 1 0 p) fun r => IsVec r B p fun b => wl (U b) := by
  have := slice_vec (lo := 0) (m := p) h (by omega)
  simp only [Nat.zero_add] at this
  refine this.mono fun r hr => hr.congr fun b i => ?_
  rfl

theorem slice_wr {t : Tensor ℝ} {U : Fin B → Fin (p + q) → ℝ} (h : IsVec t B (p + q) U) :
    Ret (t.slice 1 p (p + q)) fun r => IsVec r B q fun b => wr (U b) :=
  (slice_vec (lo := p) (m := q) h le_rfl).mono fun _ hr => hr.congr fun _ _ => rfl

theorem slice_colsL {t : Tensor ℝ} {U : Fin B → Matrix (Fin m) (Fin (p + q)) ℝ} (h : IsMat t B m (p + q) U) :
    Ret (t.slice 2 0 p) fun r => IsMat r B m p fun b => colsL (U b) := by
  have := slice_cols (lo := 0) (q := p) h (by omega)
  simp only [Nat.zero_add] at this
  refine this.mono fun r hr => hr.congr fun b i j => ?_
  rfl

theorem slice_colsR {t : Tensor ℝ} {U : Fin B → Matrix (Fin m) (Fin (p + q)) ℝ} (h : IsMat t B m (p + q) U) :
    Ret (t.slice 2 p (p + q)) fun r => IsMat r B m q fun b => colsR (U b) :=
  (slice_cols (lo := p) (q := q) h le_rfl).mono fun _ hr => hr.congr fun _ _ _ => rfl

theorem slice_rowsL {t : Tensor ℝ} {U : Fin B → Matrix (Fin (p + q)) (Fin m) ℝ} (h : IsMat t B (p + q) m U) :
    Ret (t.slice 1 0 p) fun r => IsMat r B p m fun b => rowsL (U b) := by
  have := slice_rows (lo := 0) (q := p) h (by omega)
  simp only [Nat.zero_add] at this
  refine this.mono fun r hr => hr.congr fun b i j => ?_
  rfl

theorem slice_rowsR {t : Tensor ℝ} {U : Fin B → Matrix (Fin (p + q)) (Fin m) ℝ} (h : IsMat t B (p + q) m U) :
    Ret (t.slice 1 p (p + q)) fun r => IsMat r B q m fun b => rowsR (U b) :=
  (slice_rows (lo := p) (q := q) h le_rfl).mono fun _ hr => hr.congr fun _ _ _ => rfl

variable {t : Tensor ℝ} {Z : Fin B → Matrix (Fin (p + q)) (Fin (p + q)) ℝ} (h : IsMat t B (p + q) (p + q) Z)
include h
theorem slice2_ul : Ret (SkipConnection.slice2 t 0 p 0 p) fun r => IsMat r B p p fun b => ulB (Z b) :=
  (slice_rowsL h).bind fun _ h1 => (slice_colsL h1).mono fun _ h2 => h2
theorem slice2_ur : Ret (SkipConnection.slice2 t 0 p p (p + q)) fun r => IsMat r B p q fun b => urB (Z b) :=
  (slice_rowsL h).bind fun _ h1 => (slice_colsR h1).mono fun _ h2 => h2
theorem slice2_ll : Ret (SkipConnection.slice2 t p (p + q) 0 p) fun r => IsMat r B q p fun b => llB (Z b) :=
  (slice_rowsR h).bind fun _ h1 => (slice_colsL h1).mono fun _ h2 => h2
theorem slice2_lr : Ret (SkipConnection.slice2 t p (p + q) p (p + q)) fun r => IsMat r B q q fun b => lrB (Z b) :=
  (slice_rowsR h).bind fun _ h1 => (slice_colsR h1).mono fun _ h2 => h2

end blocks

theorem IsVec.dim1 {t : Tensor ℝ} {B n : Nat} {X : Fin B → Fin n → ℝ} (h : IsVec t B n X) : t.dim 1 = .ok n := by simp [Tensor.dim, h.1]
theorem IsMat.dim1 {t : Tensor ℝ} {B m n : Nat} {X : Fin B → Matrix (Fin m) (Fin n) ℝ} (h : IsMat t B m n X) : t.dim 1 = .ok m := by simp [Tensor.dim, h.1]
theorem IsMat.dim2 {t : Tensor ℝ} {B m n : Nat} {X : Fin B → Matrix (Fin m) (Fin n) ℝ} (h : IsMat t B m n X) : t.dim 2 = .ok n := by simp [Tensor.dim, h.1]

theorem zeros_mat {B m n : Nat} : IsMat (zeros [B, m, n] : Tensor ℝ) B m n fun _ => 0 := ⟨rfl, fun _ _ _ => rfl⟩

theorem reshape_flat {t : Tensor ℝ} {B n : Nat} {s : List Nat} {X : Fin B → Fin n → ℝ} (h : IsBatch t B s n X) (hs : size s = n) :
    Ret (t.reshape [B, n]) fun r => IsVec r B n X :=
  (reshape_ret (by simp [Tensor.numel, h.1, hs])).mono fun r ⟨h1, h2⟩ => isVec_iff_batch.2 ⟨h1, fun b i => by rw [h2, h.2]⟩

theorem tail_some {v : Tensor ℝ} {B d : Nat} {r : List Nat} (l : Nat) (h : v.shape = B :: d :: r) :
    ∃ t, SkipConnection.tailVal (some v) l = .ok (some t) := by
  simp [SkipConnection.tailVal, Tensor.dim, Tensor.slice, h]

namespace Skip
variable {a c : Nat} {r : List Nat} {n k p : Nat} {id : Nat} {F : Mdl (a :: r) n (c :: r) k p} {B : Nat} {X : Fin B → Fin n → ℝ} {s : Store ℝ}
  {x : Tensor ℝ} (hF : GoodI F) (hany : F.anyVal) (hw : (skipMdl id F).wired s) (hB : 0 < B) (hx : IsBatch x B (a :: r) n X)

theorem step {s s' : Store ℝ} (h : Step F.ids s s') : Step (skipMdl id F).ids s s' := h.mono fun _ hi => List.mem_cons_of_mem _ hi

include hF in
theorem wired_of {s' : Store ℝ} (h : Wiring s s') (hw : (skipMdl id F).wired s) : (skipMdl id F).wired s' :=
  ⟨hF.wired_of h hw.1, by rw [h.hooks]; exact hw.2⟩

include hF hw hB hx in
theorem forward : Run (SkipConnection.forward F.m x) s fun y s' =>
    IsBatch y B ((a + c) :: r) (n + k) ((skipMdl id F).Y s X) ∧ Step F.ids s s' ∧ F.cache B X s' := by
  obtain ⟨v, s', hv, hb, hs, hc⟩ := hF.forward hw.1 hB hx
  have e : F.m.call x s = (.ok v, s') := by
    simp only [Mod.call]
    rw [Prog.bind_ok hv, Prog.bind_read_run, hs.hooks, hw.2]
    rfl
  refine Run.bind (P := fun y s'' => y = v ∧ s'' = s') (Run.ofEq e ⟨rfl, rfl⟩) fun y s'' ⟨hy, hs'⟩ => ?_
  subst hy; subst hs'
  exact Run.lift (cat2_batch hx hb hF.hn hF.hk) fun t ht => ⟨ht, hs, hc⟩

theorem back {β : Type} {body : Option (Tensor ℝ) → Prog ℝ β} {post : β → Prop} {l : Nat} (hany : F.anyVal) (h : F.Back s X body post) :
    (skipMdl id F).Back s X (fun val => (liftM (SkipConnection.tailVal val l) : Prog ℝ _) >>= body) post := by
  refine ⟨fun v hv hc => ?_, h.2.mono fun o s' ⟨ho, hs, hc⟩ => ⟨ho, step hs, hc⟩⟩
  obtain ⟨t, ht⟩ := tail_some l (hv.resolve_left fun h => h).1
  exact Run.bindEq ht (h.1 t (Or.inl hany) hc)

theorem backW {β : Type} {body : Option (Tensor ℝ) → Prog ℝ β} {post : β → Prop} {l : Nat} (hany : F.anyVal) (h : F.BackW s X body post) :
    (skipMdl id F).BackW s X (fun val => (liftM (SkipConnection.tailVal val l) : Prog ℝ _) >>= body) post := by
  refine ⟨fun v hv hc => ?_, h.2.mono fun o s' ⟨ho, hs, hc⟩ => ⟨ho, step hs, hc⟩⟩
  obtain ⟨t, ht⟩ := tail_some l (hv.resolve_left fun h => h).1
  exact Run.bindEq ht (h.1 t (Or.inl hany) hc)

theorem fwd {β : Type} {body : Option (Tensor ℝ) → Prog ℝ β} {post : β → Prop} {l : Nat} (hany : F.anyVal) (h : F.Fwd s X body post) :
    (skipMdl id F).Fwd s X (fun val => (liftM (SkipConnection.tailVal val l) : Prog ℝ _) >>= body) post := by
  intro val hv
  cases val with
  | none => exact (h none (by simp)).mono fun o s' ⟨ho, hs, hc⟩ => ⟨ho, step hs, hc⟩
  | some v =>
    obtain ⟨t, ht⟩ := tail_some l ((hv v rfl).resolve_left fun h => h).1
    exact Run.bindEq ht ((h (some t) fun _ _ => Or.inl hany).mono fun o s' ⟨ho, hs, hc⟩ => ⟨ho, step hs, hc⟩)

include hF hw hB hx in
theorem getBack {β : Type} {f : Tensor ℝ → Prog ℝ β} {post : β → Prop}
    (hf : ∀ s' v, s'.param = s.param → F.wired s' → F.cache B X s' → IsBatch v B ((a + c) :: r) (n + k) ((skipMdl id F).Y s X) →
      Run (f v) s' fun o s'' => post o ∧ s'' = s') :
    (skipMdl id F).Back s X (fun val => SkipConnection.getVal F.m x val >>= f) post := by
  refine ⟨fun v hv hc => hf s v rfl hw.1 hc (hv.resolve_left fun h => h), ?_⟩
  refine (forward hF hw hB hx).bind fun v s' ⟨hv, hs, hc⟩ => ?_
  refine (hf s' v hs.param (hF.wired_of hs.wiring hw.1) hc hv).mono fun o s'' ⟨ho, hs'⟩ => ?_
  subst hs'
  exact ⟨ho, step hs, hc⟩

include hF hw hB hx in
theorem getBackS {β : Type} {f : Tensor ℝ → Prog ℝ β} {post : β → Prop}
    (hf : ∀ s' v, s'.param = s.param → F.wired s' → F.cache B X s' → IsBatch v B ((a + c) :: r) (n + k) ((skipMdl id F).Y s X) →
      Run (f v) s' fun o s'' => post o ∧ Step F.ids s' s'' ∧ F.cache B X s'') :
    (skipMdl id F).BackS s X (fun val => SkipConnection.getVal F.m x val >>= f) post := by
  refine ⟨fun v hv hc => (hf s v rfl hw.1 hc (hv.resolve_left fun h => h)).mono fun o s' ⟨ho, hs, hc⟩ => ⟨ho, step hs, hc⟩, ?_⟩
  refine (forward hF hw hB hx).bind fun v s' ⟨hv, hs, hc⟩ => ?_
  exact (hf s' v hs.param (hF.wired_of hs.wiring hw.1) hc hv).mono fun o s'' ⟨ho, hs', hc'⟩ => ⟨ho, step (hs.trans hs'), hc'⟩

theorem metric_sub {fd : Bool} {A : Tensor ℝ} {Z : Fin B → Matrix (Fin (n + k)) (Fin (n + k)) ℝ} (hA : MetricArg fd A B (n + k) Z) :
    Ret (if fd then A.slice 1 n (n + k) else do
      let n2 ← A.dim 2
      SkipConnection.slice2 A n (n + k) n n2) fun t => MetricArg fd t B k fun b => lrB (Z b) := by
  cases fd with
  | true =>
    obtain ⟨d, hd, hZ⟩ := hA
    exact (slice_wr hd).mono fun t ht => ⟨_, ht, fun b => by show lrB (Z b) = _; rw [hZ, lrB_diag]⟩
  | false =>
    have hA : IsMat A B (n + k) (n + k) Z := hA
    simp only [hA.dim2, Bool.false_eq_true, if_false]
    exact (slice2_lr hA).mono fun t ht => ht

theorem metric_dim1 {fd : Bool} {A : Tensor ℝ} {m : Nat} {Z : Fin B → Matrix (Fin m) (Fin m) ℝ} (hA : MetricArg fd A B m Z) :
    A.dim 1 = .ok m := by
  cases fd with
  | true => obtain ⟨d, hd, _⟩ := hA; exact hd.dim1
  | false => exact IsMat.dim1 hA

theorem optW_some {P : Tensor ℝ → Prop} {o : Option (Tensor ℝ)} (hp : 0 < p) (h : OptW p P o) : IsSome P o := by
  simpa [OptW, Nat.ne_of_gt hp] using h

theorem need {β : Type} {P : Tensor ℝ → Prop} {o : Option (Tensor ℝ)} {f : Tensor ℝ → Prog ℝ β} {Q : β → Store ℝ → Prop} (h : IsSome P o)
    (hf : ∀ t, P t → Run (f t) s Q) : Run (Prog.need o >>= f) s Q := by
  cases o with
  | none => exact h.elim
  | some t => exact hf t h

end Skip

open Skip in
theorem good_skipI {a c : Nat} {r : List Nat} {n k p : Nat} {id : Nat} {F : Mdl (a :: r) n (c :: r) k p} (hF : GoodI F) (hany : F.anyVal) :
    GoodI (skipMdl id F) where
  hn := hF.hn
  hk := by
    have h1 := hF.hn
    have h2 := hF.hk
    simp only [size_cons] at *
    rw [Nat.add_mul, h1, h2]
  npos := hF.npos
  kpos := Nat.add_pos_left hF.npos _
  id_mem := List.mem_cons_self
  wired_of := fun h hw => Skip.wired_of hF h hw
  w_of := fun h => hF.w_of h
  cache_frame := fun e hf hc => hF.cache_frame e (fun i hi => hf i (List.mem_cons_of_mem _ hi)) hc
  forward := fun hw hB hx => (Skip.forward hF hw hB hx).mono fun _ _ ⟨h, hs, hc⟩ => ⟨h, step hs, hc⟩
  jacI := @fun s B X x hw hB hx => by
    refine (hF.jacI hw.1 hB hx).bind fun o s1 ⟨ho, hs1, hc1⟩ => ?_
    refine Run.bindEq hx.dim0 (Run.bindEq (hx.numel0 hB hF.hn) ?_)
    refine (Skip.forward hF (Skip.wired_of hF hs1.wiring hw) hB hx).bind fun v s2 ⟨hv, hs2, hc2⟩ => ?_
    refine Run.bindLift (reshape_flat (isBatch_onesLike hx) hF.hn) fun e he => Run.bindLift (diagEmbed_vec he) fun I hI => ?_
    refine need ho fun t ht => Run.bindLift (cat2_rows hI ht) fun y hy => Run.pure ⟨?_, step (hs1.trans hs2), hc2⟩
    refine hy.congr fun b i j => ?_
    have : (diagonal fun _ => (1 : ℝ)) = (1 : Matrix (Fin n) (Fin n) ℝ) := rfl
    rw [this]; rfl
  vjpI := @fun s B X x u U hw hB hx hu => by
    refine Mdl.Back.eq (hx.numel0 hB hF.hn) (back hany (Mdl.Back.eq hu.dim1 (Mdl.Back.lift (slice_wr hu) fun ut hut => ?_)))
    refine (hF.vjpI hw.1 hB hx hut).then fun o s' ho => Run.bindLift (slice_wl hu) fun uh huh => ?_
    refine need ho fun t ht => Run.bindLift (add_vec huh ht) fun y hy => Run.pure ⟨hy.congr fun b i => ?_, rfl⟩
    show _ = (U b ᵥ* vcat 1 (F.J s X b)) i
    rw [vecMul_vcat, vecMul_one]
  mjpI := @fun s B X x r A Z hw hB hx hr hA => by
    refine Mdl.Back.eq (hx.numel0 hB hF.hn) (back hany (Mdl.Back.eq hA.dim2 (Mdl.Back.lift (slice_colsR hA) fun ut hut => ?_)))
    refine (hF.mjpI hw.1 hB hx hr hut).then fun o s' ho => Run.bindLift (slice_colsL hA) fun uh huh => ?_
    refine need ho fun t ht => Run.bindLift (add_mat huh ht) fun y hy => Run.pure ⟨hy.congr fun b i j => ?_, rfl⟩
    show _ = (HMul.hMul (Z b) (vcat 1 (F.J s X b)) : Matrix _ _ ℝ) i j
    rw [mul_vcat, Matrix.mul_one]
  jTI := @fun s B X x A Z fd td hw hB hx hA => by
    refine getBack hF hw hB hx fun s' v hpar hw' hc hv => ?_
    obtain ⟨tv, htv⟩ := tail_some n hv.1
    refine Run.bindEq (hx.numel0 hB hF.hn) (Run.bindEq htv (Run.bindEq (metric_dim1 hA) (Run.bindLift (metric_sub hA) fun sub hsub => ?_)))
    refine ((hF.jTI fd td hw' hB hx hsub).1 tv (Or.inl hany) hc).bind fun o s'' ⟨ho, hs⟩ => ?_
    subst hs
    cases o with
    | none => exact ho.elim
    | list _ => exact ho.elim
    | tensor o =>
    replace ho : MetricOut td o B n _ := ho
    have eJ : ∀ b, (skipMdl id F).J s X b = vcat 1 (F.J s'' X b) := fun b => by rw [hF.J_of hpar]; rfl
    refine Run.bindEq (b := o) rfl ?_
    cases fd with
    | true =>
      obtain ⟨d, hd, hZ⟩ := hA
      have key : ∀ b, ((skipMdl id F).J s X b)ᵀ * Z b * (skipMdl id F).J s X b =
          (F.J s'' X b)ᵀ * lrB (Z b) * F.J s'' X b + diagonal (wl (d b)) := by
        intro b
        rw [eJ, sandwichT_vcat, hZ, urB_diag, llB_diag, ulB_diag]
        simp
      cases td with
      | true =>
        refine Run.bindLift (slice_wl hd) fun h hh => Run.bindLift (add_vec ho hh) fun y hy => Run.pure ⟨hy.congr fun b i => ?_, rfl⟩
        simp only [key]; simp
      | false =>
        refine Run.bindLift (slice_wl hd) fun h hh => Run.bindLift (diagEmbed_vec hh) fun h hh =>
          Run.bindLift (add_mat ho hh) fun y hy => Run.pure ⟨hy.congr fun b i j => ?_, rfl⟩
        rw [key]
    | false =>
      replace hA : IsMat A B (n + k) (n + k) Z := hA
      have key : ∀ b, ((skipMdl id F).J s X b)ᵀ * Z b * (skipMdl id F).J s X b =
          (F.J s'' X b)ᵀ * lrB (Z b) * F.J s'' X b + urB (Z b) * F.J s'' X b + ((llB (Z b))ᵀ * F.J s'' X b)ᵀ + ulB (Z b) := by
        intro b
        rw [eJ, sandwichT_vcat, transpose_mul, transpose_transpose]
        simp
      refine Run.bindEq hA.dim2 (Run.bindLift (slice2_ur hA) fun ur hur => ?_)
      refine Run.bind ((hF.mjpI hw' hB hx hF.npos hur).1 tv (Or.inl hany) hc) fun o1 s1 ⟨ho1, hs1⟩ => ?_
      subst hs1
      refine need ho1 fun m1 hm1 => Run.bindLift (slice2_ll hA) fun ll hll => Run.bindLift (transpose_mat hll) fun llT hllT => ?_
      refine Run.bind ((hF.mjpI hw' hB hx hF.npos hllT).1 tv (Or.inl hany) hc) fun o2 s2 ⟨ho2, hs2⟩ => ?_
      subst hs2
      refine need ho2 fun m2 hm2 => Run.bindLift (transpose_mat hm2) fun m3 hm3 => Run.bindLift (slice2_ul hA) fun ul hul => ?_
      cases td with
      | true =>
        refine Run.bindLift (ein_bii hm1) fun d1 hd1 => Run.bindLift (ein_bii hm3) fun d2 hd2 => Run.bindLift (ein_bii hul) fun d3 hd3 => ?_
        refine Run.bindLift (add_vec ho hd1) fun y1 hy1 => Run.bindLift (add_vec hy1 hd2) fun y2 hy2 => Run.bindLift (add_vec hy2 hd3) fun y hy =>
          Run.pure ⟨hy.congr fun b i => ?_, rfl⟩
        simp only [key]; simp
      | false =>
        refine Run.bindLift (add_mat ho hm1) fun y1 hy1 => Run.bindLift (add_mat hy1 hm3) fun y2 hy2 => Run.bindLift (add_mat hy2 hul) fun y hy =>
          Run.pure ⟨hy.congr fun b i j => ?_, rfl⟩
        rw [key]
  jTIdb := @fun s B X x A d hw hB hx hA => by
    refine getBack hF hw hB hx fun s' v hpar hw' hc hv => ?_
    obtain ⟨tv, htv⟩ := tail_some n hv.1
    refine Run.bindEq (hx.numel0 hB hF.hn) (Run.bindEq htv (Run.bindEq hA.dim1 (Run.bindLift (slice_wr hA) fun sub hsub => ?_)))
    refine ((hF.jTIdb hw' hB hx hsub).1 tv (Or.inl hany) hc).bind fun o s'' ⟨ho, hs⟩ => ?_
    subst hs
    cases o with
    | none => exact ho.elim
    | list _ => exact ho.elim
    | tensor o =>
    refine Run.bindEq (b := o) rfl ?_
    refine Run.bindLift (slice_wl hA) fun h hh => Run.bindLift (add_vec ho hh) fun y hy => Run.pure ⟨hy.congr fun b i => ?_, rfl⟩
    have eQ : (skipMdl id F).Q s X b = vcat 1 (F.Q s'' X b) := by rw [hF.Q_of hpar]; rfl
    rw [eQ, vecMul_vcat, vecMul_one, add_comm]

open Skip in
theorem good_skip {a c : Nat} {r : List Nat} {n k p : Nat} {id : Nat} {F : Mdl (a :: r) n (c :: r) k p} (hF : Good F) (hany : F.anyVal) :
    Good (skipMdl id F) where
  toGoodI := good_skipI hF.toGoodI hany
  nParams := hF.nParams
  arg_of_metric := fun h => hF.arg_of_metric h
  arg_of_blocks := fun h => hF.arg_of_blocks h
  blocks_ne := fun h => hF.blocks_ne h
  mask_diag := fun d => hF.mask_diag d
  jacW := @fun s B X x hw hB hx hp => by
    replace hp : 0 < p := hp.elim (fun h => h) fun h => h.1
    refine (hF.jacW hw.1 hB hx (Or.inl hp)).bind fun o s1 ⟨ho, hs1, hc1⟩ => ?_
    refine Run.bindEq hx.dim0 (Run.bindEq (hx.numel0 hB hF.hn) ?_)
    refine (Skip.forward hF (Skip.wired_of hF hs1.wiring hw) hB hx).bind fun v s2 ⟨hv, hs2, hc2⟩ => ?_
    refine need (optW_some hp ho) fun t ht => ?_
    have hz : IsMat (zeros [B, n, F.m.nParams] : Tensor ℝ) B n p fun _ => 0 := by rw [hF.nParams]; exact zeros_mat
    refine Run.bindLift (cat2_rows hz ht) fun y hy => Run.pure ⟨?_, step (hs1.trans hs2), fun _ => hc2⟩
    simp only [OptW, Nat.ne_of_gt hp, if_false]
    exact hy
  vjpW := @fun s B X x u U hw hB hx hu => by
    refine Mdl.BackW.eq (hx.numel0 hB hF.hn) (backW hany (Mdl.BackW.eq hu.dim1 (Mdl.BackW.lift (slice_wr hu) fun ut hut => ?_)))
    refine (hF.vjpW hw.1 hB hx hut).then fun o s' ho => Run.pure ⟨OptW.mono ho fun t ht => ht.congr fun b i => ?_, rfl⟩
    show _ = (U b ᵥ* vcat 0 (F.JW s X b)) i
    rw [vecMul_vcat, vecMul_zero, zero_add]
  mjpW := @fun s B X x r A Z hw hB hx hr hA => by
    refine Mdl.BackW.eq (hx.numel0 hB hF.hn) (backW hany (Mdl.BackW.eq hA.dim2 (Mdl.BackW.lift (slice_colsR hA) fun ut hut => ?_)))
    refine (hF.mjpW hw.1 hB hx hr hut).then fun o s' ho => Run.pure ⟨OptW.mono ho fun t ht => ht.congr fun b i j => ?_, rfl⟩
    show _ = (HMul.hMul (Z b) (vcat 0 (F.JW s X b)) : Matrix _ _ ℝ) i j
    rw [mul_vcat, Matrix.mul_zero, zero_add]
  jTWd := @fun s B X x A Z fd hw hB hx hA => by
    refine getBack hF hw hB hx fun s' v hpar hw' hc hv => ?_
    obtain ⟨tv, htv⟩ := tail_some n hv.1
    refine Run.bindEq (hx.numel0 hB hF.hn) (Run.bindEq htv (Run.bindEq (metric_dim1 hA) (Run.bindLift (metric_sub hA) fun sub hsub => ?_)))
    refine ((hF.jTWd fd hw' hB hx hsub).1 tv (Or.inl hany) hc).bind fun o s'' ⟨ho, hs⟩ => Run.pure ⟨?_, hs⟩
    have e : ∀ b, ((skipMdl id F).JW s X b)ᵀ * Z b * (skipMdl id F).JW s X b = (F.JW s' X b)ᵀ * lrB (Z b) * F.JW s' X b := fun b => by
      have : (skipMdl id F).JW s X b = vcat 0 (F.JW s' X b) := by rw [hF.JW_of hpar]; rfl
      rw [this, sandwichT_vcat]; simp
    simp only [e]
    exact ho
  jTWdb := @fun s B X x A d hw hB hx hA => by
    refine getBack hF hw hB hx fun s' v hpar hw' hc hv => ?_
    obtain ⟨tv, htv⟩ := tail_some n hv.1
    refine Run.bindEq (hx.numel0 hB hF.hn) (Run.bindEq htv (Run.bindEq hA.dim1 (Run.bindLift (slice_wr hA) fun sub hsub => ?_)))
    refine ((hF.jTWdb hw' hB hx hsub).1 tv (Or.inl hany) hc).bind fun o s'' ⟨ho, hs⟩ => Run.pure ⟨?_, hs⟩
    have e : ∀ b, d b ᵥ* (skipMdl id F).QW s X b = wr (d b) ᵥ* F.QW s' X b := fun b => by
      have : (skipMdl id F).QW s X b = vcat 0 (F.QW s' X b) := by rw [hF.QW_of hpar]; rfl
      rw [this, vecMul_vcat]; simp
    simp only [e]
    exact ho
  jTWf := @fun s B X x A Z fd hw hB hx hA => by
    refine getBack hF hw hB hx fun s' v hpar hw' hc hv => ?_
    obtain ⟨tv, htv⟩ := tail_some n hv.1
    refine Run.bindEq (hx.numel0 hB hF.hn) (Run.bindEq htv (Run.bindEq (metric_dim1 hA) (Run.bindLift (metric_sub hA) fun sub hsub => ?_)))
    refine ((hF.jTWf fd hw' hB hx hsub).1 tv (Or.inl hany) hc).bind fun o s'' ⟨ho, hs⟩ => Run.pure ⟨?_, hs⟩
    have e : ∀ b, ((skipMdl id F).JW s X b)ᵀ * Z b * (skipMdl id F).JW s X b = (F.JW s' X b)ᵀ * lrB (Z b) * F.JW s' X b := fun b => by
      have : (skipMdl id F).JW s X b = vcat 0 (F.JW s' X b) := by rw [hF.JW_of hpar]; rfl
      rw [this, sandwichT_vcat]; simp
    simp only [e]
    exact ho
  jvpI := fun hf => @fun s B X x u U hw hB hx hu => by
    refine Mdl.Fwd.eq hx.dim0 (Mdl.Fwd.eq (hx.numel0 hB hF.hn) (fwd hany ?_))
    refine (hF.jvpI hf hw.1 hB hx hu).then fun o s' ho => need ho fun t ht => Run.bindLift (cat2_vec hu ht) fun y hy => Run.pure ⟨hy.congr fun b i => ?_, rfl⟩
    show _ = (vcat 1 (F.J s X b) *ᵥ U b) i
    rw [vcat_mulVec, one_mulVec]
  jvpW := fun hf hpW => @fun s B X x u U hw hB hx hu => by
    refine Mdl.Fwd.eq hx.dim0 (Mdl.Fwd.eq (hx.numel0 hB hF.hn) (fwd hany ?_))
    refine (hF.jvpW hf hpW.2 hw.1 hB hx hu).then fun o s' ho => ?_
    have hz : IsBatch (zerosLike x) B (a :: r) n fun _ _ => 0 := ⟨hx.1, fun _ _ => rfl⟩
    refine Run.bindLift (reshape_flat hz hF.hn) fun z hz => need (optW_some hpW.1 ho) fun t ht => Run.bindLift (cat2_vec hz ht) fun y hy => Run.pure ⟨?_, rfl⟩
    simp only [OptW, Nat.ne_of_gt hpW.1, if_false]
    refine hy.congr fun b i => ?_
    show _ = (vcat 0 (F.JW s X b) *ᵥ U b) i
    rw [vcat_mulVec, zero_mulVec]; rfl
  jmpI := fun hf => @fun s B X x r A Z hw hB hx hA => by
    refine Mdl.Fwd.eq hx.dim0 (Mdl.Fwd.eq (hx.numel0 hB hF.hn) (fwd hany ?_))
    refine (hF.jmpI hf hw.1 hB hx hA).then fun o s' ho => need ho fun t ht => Run.bindLift (cat2_rows hA ht) fun y hy => Run.pure ⟨hy.congr fun b i j => ?_, rfl⟩
    show _ = (vcat 1 (F.J s X b) * Z b) i j
    rw [vcat_mul, Matrix.one_mul]
  jmpW := fun hf hpW => @fun s B X x r A Z hw hB hx hA => by
    refine Mdl.Fwd.eq hx.dim0 (Mdl.Fwd.eq (hx.numel0 hB hF.hn) (fwd hany ?_))
    refine (hF.jmpW hf hpW.2 hw.1 hB hx hA).then fun o s' ho => Run.bindEq hA.dim2 ?_
    refine need (optW_some hpW.1 ho) fun t ht => Run.bindLift (cat2_rows zeros_mat ht) fun y hy => Run.pure ⟨?_, rfl⟩
    simp only [OptW, Nat.ne_of_gt hpW.1, if_false]
    refine hy.congr fun b i j => ?_
    show _ = (vcat 0 (F.JW s X b) * Z b) i j
    rw [vcat_mul, Matrix.zero_mul]
  jmjI := fun hf => @fun s B X x A Z fd td hw hB hx hA => by
    refine getBackS hF hw hB hx fun s' v hpar hw' hc hv => ?_
    obtain ⟨tv, htv⟩ := tail_some n hv.1
    have hkk : size ((a + c) :: r) = n + k := by
      have h1 := hF.hn
      have h2 := hF.hk
      simp only [size_cons] at *
      rw [Nat.add_mul, h1, h2]
    refine Run.bindEq hx.dim0 (Run.bindEq (hx.numel0 hB hF.hn) (Run.bindEq (hv.numel0 hB hkk) (Run.bindEq htv ?_)))
    refine ((hF.jmjI hf fd td hw' hB hx hA).1 tv (Or.inl hany) hc).bind fun o s1 ⟨ho, hs1, hc1⟩ => ?_
    have hw1 := hF.wired_of hs1.wiring hw'
    have eJ : ∀ b, (skipMdl id F).J s X b = vcat 1 (F.J s' X b) := fun b => by rw [hF.J_of hpar]; rfl
    refine Run.bindPure ?_
    have key : ∀ b, (skipMdl id F).J s X b * Z b * ((skipMdl id F).J s X b)ᵀ =
        vcat (hcat (Z b) (Z b * (F.J s' X b)ᵀ)) (hcat (F.J s' X b * Z b) (F.J s' X b * Z b * (F.J s' X b)ᵀ)) := by
      intro b
      rw [eJ, sandwich_vcat]; simp
    cases td with
    | true =>
      cases fd with
      | true =>
        obtain ⟨d, hd, hZ⟩ := hA
        refine need ho fun t ht => Run.bindLift (cat2_vec hd ht) fun y hy => Run.pure ⟨hy.congr fun b i => ?_, hs1, hc1⟩
        beta_reduce
        rw [key, diag_vcat, hZ, diag_diagonal]
      | false =>
        refine Run.bindLift (ein_bii hA) fun d hd => need ho fun t ht => Run.bindLift (cat2_vec hd ht) fun y hy =>
          Run.pure ⟨hy.congr fun b i => ?_, hs1, hc1⟩
        beta_reduce
        rw [key, diag_vcat]
    | false =>
      cases fd with
      | true =>
        obtain ⟨d, hd, hZ⟩ := hA
        refine Run.bindLift (diagEmbed_vec hd) fun D hD => ?_
        refine (hF.jmpI hf hw1 hB hx hD (some tv) fun _ _ => Or.inl hany).bind fun o1 s2 ⟨ho1, hs2, hc2⟩ => ?_
        refine need ho1 fun j hj => Run.bindLift (transpose_mat hj) fun jT hjT => need ho fun t ht => ?_
        refine Run.bindLift (P := fun y => IsMat y B (n + k) (n + k) fun b => (skipMdl id F).J s X b * Z b * ((skipMdl id F).J s X b)ᵀ) ?_
          fun y hy => Run.pure ⟨hy, hs1.trans hs2, hc2 hc1⟩
        refine (cat2_cols hD hjT).bind fun y1 hy1 => (cat2_cols hj ht).bind fun y2 hy2 => (cat2_rows hy1 hy2).mono fun y hy => hy.congr fun b i l => ?_
        rw [key, hF.J_of hs1.param, hZ, transpose_mul, diagonal_transpose]
      | false =>
        refine (hF.jmpI hf hw1 hB hx hA (some tv) fun _ _ => Or.inl hany).bind fun o1 s2 ⟨ho1, hs2, hc2⟩ => ?_
        have hw2 := hF.wired_of hs2.wiring hw1
        refine need ho1 fun j hj => Run.bindLift (transpose_mat hA) fun AT hAT => ?_
        refine (hF.jmpI hf hw2 hB hx hAT (some tv) fun _ _ => Or.inl hany).bind fun o2 s3 ⟨ho2, hs3, hc3⟩ => ?_
        refine need ho2 fun j2 hj2 => Run.bindLift (transpose_mat hj2) fun jT hjT => need ho fun t ht => ?_
        refine Run.bindLift (P := fun y => IsMat y B (n + k) (n + k) fun b => (skipMdl id F).J s X b * Z b * ((skipMdl id F).J s X b)ᵀ) ?_
          fun y hy => Run.pure ⟨hy, (hs1.trans hs2).trans hs3, hc3 (hc2 hc1)⟩
        refine Ret.bind (cat2_cols hA hjT) fun y1 hy1 => (cat2_cols hj ht).bind fun y2 hy2 => (cat2_rows hy1 hy2).mono fun y hy => hy.congr fun b i l => ?_
        rw [key, hF.J_of hs1.param, hF.J_of (hs2.param.trans hs1.param), transpose_mul, transpose_transpose]
  jmjIdb := fun hf => @fun s B X x A d hw hB hx hA => by
    refine getBackS hF hw hB hx fun s' v hpar hw' hc hv => ?_
    obtain ⟨tv, htv⟩ := tail_some n hv.1
    have hkk : size ((a + c) :: r) = n + k := by
      have h1 := hF.hn
      have h2 := hF.hk
      simp only [size_cons] at *
      rw [Nat.add_mul, h1, h2]
    refine Run.bindEq hx.dim0 (Run.bindEq (hx.numel0 hB hF.hn) (Run.bindEq (hv.numel0 hB hkk) (Run.bindEq htv ?_)))
    refine ((hF.jmjIdb hf hw' hB hx hA).1 tv (Or.inl hany) hc).bind fun o s1 ⟨ho, hs1, hc1⟩ => ?_
    refine Run.bindPure ?_
    refine need ho fun t ht => Run.bindLift (cat2_vec hA ht) fun y hy => Run.pure ⟨hy.congr fun b i => ?_, hs1, hc1⟩
    have eQ : (skipMdl id F).Q s X b = vcat 1 (F.Q s' X b) := by rw [hF.Q_of hpar]; rfl
    rw [eQ, vcat_mulVec, one_mulVec]
  jmjW := fun hf hp => @fun s B X x v Z fd td hw hB hx hA => by
    refine getBackS hF hw hB hx fun s' y hpar hw' hc hv => ?_
    obtain ⟨tv, htv⟩ := tail_some n hv.1
    have hkk : size ((a + c) :: r) = n + k := by
      have h1 := hF.hn
      have h2 := hF.hk
      simp only [size_cons] at *
      rw [Nat.add_mul, h1, h2]
    refine Run.bindEq hx.dim0 (Run.bindEq (hx.numel0 hB hF.hn) (Run.bindEq (hv.numel0 hB hkk) (Run.bindEq htv ?_)))
    refine ((hF.jmjW hf hp fd td hw' hB hx hA).1 tv (Or.inl hany) hc).bind fun o s1 ⟨ho, hs1, hc1⟩ => ?_
    have key : ∀ b, (skipMdl id F).JW s X b * F.S.skip.mask (Z b) * ((skipMdl id F).JW s X b)ᵀ =
        vcat (hcat (0 : Matrix (Fin n) (Fin n) ℝ) 0) (hcat 0 (F.JW s' X b * F.S.mask (Z b) * (F.JW s' X b)ᵀ)) := by
      intro b
      have : (skipMdl id F).JW s X b = vcat 0 (F.JW s' X b) := by rw [hF.JW_of hpar]; rfl
      rw [this, sandwich_vcat]
      simp only [Matrix.zero_mul, transpose_zero, Matrix.mul_zero]
      rfl
    cases td with
    | true =>
      have hz : IsBatch (zerosLike x) B (a :: r) n fun _ _ => 0 := ⟨hx.1, fun _ _ => rfl⟩
      refine Run.bindLift (reshape_flat hz hF.hn) fun z hz => need ho fun t ht => Run.bindLift (cat2_vec hz ht) fun y hy => Run.pure ⟨?_, hs1, hc1⟩
      refine hy.congr fun b i => ?_
      have := key b
      show _ = diag ((skipMdl id F).JW s X b * F.S.skip.mask (Z b) * ((skipMdl id F).JW s X b)ᵀ) i
      rw [this, diag_vcat]; rfl
    | false =>
      refine need ho fun t ht => ?_
      have e : n + k - n = k := by omega
      simp only [e]
      refine Run.bindLift (cat2_cols zeros_mat ht) fun y1 hy1 => Run.bindLift (cat2_rows zeros_mat hy1) fun y hy => Run.pure ⟨?_, hs1, hc1⟩
      refine hy.congr fun b i j => ?_
      show _ = ((skipMdl id F).JW s X b * F.S.skip.mask (Z b) * ((skipMdl id F).JW s X b)ᵀ) i j
      rw [key]
      refine Fin.addCases (fun i => ?_) (fun i => ?_) i
      · simp only [vcat_left]
        refine Fin.addCases (fun j => ?_) (fun j => ?_) j <;> simp
      · simp only [vcat_right]
  jmjWdb := fun hf hp => @fun s B X x A d hw hB hx hA => by
    refine getBackS hF hw hB hx fun s' y hpar hw' hc hv => ?_
    obtain ⟨tv, htv⟩ := tail_some n hv.1
    have hkk : size ((a + c) :: r) = n + k := by
      have h1 := hF.hn
      have h2 := hF.hk
      simp only [size_cons] at *
      rw [Nat.add_mul, h1, h2]
    refine Run.bindEq hx.dim0 (Run.bindEq (hx.numel0 hB hF.hn) (Run.bindEq (hv.numel0 hB hkk) (Run.bindEq htv ?_)))
    refine ((hF.jmjWdb hf hp hw' hB hx hA).1 tv (Or.inl hany) hc).bind fun o s1 ⟨ho, hs1, hc1⟩ => ?_
    have hz : IsBatch (zerosLike x) B (a :: r) n fun _ _ => 0 := ⟨hx.1, fun _ _ => rfl⟩
    refine Run.bindLift (reshape_flat hz hF.hn) fun z hz => need ho fun t ht => Run.bindLift (cat2_vec hz ht) fun y hy => Run.pure ⟨?_, hs1, hc1⟩
    refine hy.congr fun b i => ?_
    have eQ : (skipMdl id F).QW s X b = vcat 0 (F.QW s' X b) := by rw [hF.QW_of hpar]; rfl
    rw [eQ, vcat_mulVec, zero_mulVec]; rfl

end NNJ
