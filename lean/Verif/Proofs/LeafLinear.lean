import Verif.Proofs.LeafDiag
import Verif.Proofs.Struct

/-! Linear meets the contract. -/

namespace NNJ
open Tensor Matrix

/-- `t[a, b, c, d] = F a b c d` -/
def IsT4 (t : Tensor ℝ) (a b c d : Nat) (F : Fin a → Fin b → Fin c → Fin d → ℝ) : Prop :=
  t.shape = [a, b, c, d] ∧ ∀ i j k l, t.get [(i : Fin a), (j : Fin b), (k : Fin c), (l : Fin d)] = F i j k l

/-- `t[a, b, c, d, e] = F a b c d e` -/
def IsT5 (t : Tensor ℝ) (a b c d e : Nat) (F : Fin a → Fin b → Fin c → Fin d → Fin e → ℝ) : Prop :=
  t.shape = [a, b, c, d, e] ∧
    ∀ i j k l m, t.get [(i : Fin a), (j : Fin b), (k : Fin c), (l : Fin d), (m : Fin e)] = F i j k l m

/-! ### hcat algebra -/

theorem vecMul_hcat {k p q : Nat} (u : Fin k → ℝ) (A : Matrix (Fin k) (Fin p) ℝ) (B : Matrix (Fin k) (Fin q) ℝ) :
    u ᵥ* hcat A B = Fin.append (u ᵥ* A) (u ᵥ* B) := by
  funext c
  refine Fin.addCases (fun c => ?_) (fun c => ?_) c <;> simp [vecMul, dotProduct]

theorem mul_hcat {r k p q : Nat} (Z : Matrix (Fin r) (Fin k) ℝ) (A : Matrix (Fin k) (Fin p) ℝ) (B : Matrix (Fin k) (Fin q) ℝ) :
    Z * hcat A B = hcat (Z * A) (Z * B) := by
  ext i c
  refine Fin.addCases (fun c => ?_) (fun c => ?_) c <;> simp [mul_apply]

theorem hcat_mulVec {k p q : Nat} (A : Matrix (Fin k) (Fin p) ℝ) (B : Matrix (Fin k) (Fin q) ℝ) (v : Fin (p + q) → ℝ) :
    hcat A B *ᵥ v = A *ᵥ wl v + B *ᵥ wr v := by
  funext i
  simp [mulVec, dotProduct, Fin.sum_univ_add, wl, wr]

/-- the first rows and the last rows -/
def rowsL {p q n : Nat} (Z : Matrix (Fin (p + q)) (Fin n) ℝ) : Matrix (Fin p) (Fin n) ℝ := fun i => Z (Fin.castAdd q i)
def rowsR {p q n : Nat} (Z : Matrix (Fin (p + q)) (Fin n) ℝ) : Matrix (Fin q) (Fin n) ℝ := fun i => Z (Fin.natAdd p i)

theorem hcat_mul {k p q n : Nat} (A : Matrix (Fin k) (Fin p) ℝ) (B : Matrix (Fin k) (Fin q) ℝ) (Z : Matrix (Fin (p + q)) (Fin n) ℝ) :
    hcat A B * Z = A * rowsL Z + B * rowsR Z := by
  ext i j
  simp [mul_apply, Fin.sum_univ_add, rowsL, rowsR]

theorem vcat_mul {m k n r : Nat} (A : Matrix (Fin m) (Fin n) ℝ) (B : Matrix (Fin k) (Fin n) ℝ) (Z : Matrix (Fin n) (Fin r) ℝ) :
    vcat A B * Z = vcat (A * Z) (B * Z) := by
  ext i c
  refine Fin.addCases (fun c => ?_) (fun c => ?_) i <;> simp [mul_apply]

theorem transpose_hcat {k p q : Nat} (A : Matrix (Fin k) (Fin p) ℝ) (B : Matrix (Fin k) (Fin q) ℝ) :
    (hcat A B)ᵀ = vcat Aᵀ Bᵀ := by
  ext i j
  refine Fin.addCases (fun c => ?_) (fun c => ?_) i <;> simp

theorem transpose_vcat {m k n : Nat} (A : Matrix (Fin m) (Fin n) ℝ) (B : Matrix (Fin k) (Fin n) ℝ) :
    (vcat A B)ᵀ = hcat Aᵀ Bᵀ := by
  ext i j
  refine Fin.addCases (fun c => ?_) (fun c => ?_) j <;> simp

/-! ### the weight Jacobian -/

/-- columns of the weight Jacobian that belong to the weight matrix -/
def WJ {i : Nat} (o : Nat) (x : Fin i → ℝ) : Matrix (Fin o) (Fin (o * i)) ℝ :=
  fun k c => if (finProdFinEquiv.symm c).1 = k then x (finProdFinEquiv.symm c).2 else 0

theorem WJ_pr {i o : Nat} (x : Fin i → ℝ) (k k' : Fin o) (j : Fin i) :
    WJ o x k (finProdFinEquiv (k', j)) = if k' = k then x j else 0 := by
  simp only [WJ, Equiv.symm_apply_apply]

theorem sum_pr {i o : Nat} (g : Fin (o * i) → ℝ) : ∑ c, g c = ∑ k : Fin o, ∑ j : Fin i, g (finProdFinEquiv (k, j)) := by
  rw [← finProdFinEquiv.sum_comp, Fintype.sum_prod_type]

theorem vecMul_WJ {i o : Nat} (u : Fin o → ℝ) (x : Fin i → ℝ) (k : Fin o) (j : Fin i) :
    (u ᵥ* WJ o x) (finProdFinEquiv (k, j)) = u k * x j := by
  simp [vecMul, dotProduct, WJ_pr]

theorem mul_WJ {r i o : Nat} (Z : Matrix (Fin r) (Fin o) ℝ) (x : Fin i → ℝ) (a : Fin r) (k : Fin o) (j : Fin i) :
    (Z * WJ o x) a (finProdFinEquiv (k, j)) = Z a k * x j := by
  simp [mul_apply, WJ_pr]

theorem WJ_mulVec {i o : Nat} (x : Fin i → ℝ) (v : Fin (o * i) → ℝ) (k : Fin o) :
    (WJ o x *ᵥ v) k = ∑ j, v (finProdFinEquiv (k, j)) * x j := by
  simp only [mulVec, dotProduct, sum_pr, WJ_pr]
  rw [Finset.sum_eq_single k]
  · simp [mul_comm]
  · intro b _ hb; simp [hb]
  · simp

theorem WJ_mul {r i o : Nat} (x : Fin i → ℝ) (Z : Matrix (Fin (o * i)) (Fin r) ℝ) (k : Fin o) (a : Fin r) :
    (WJ o x * Z) k a = ∑ j, Z (finProdFinEquiv (k, j)) a * x j := by
  simp only [mul_apply, sum_pr, WJ_pr]
  rw [Finset.sum_eq_single k]
  · simp [mul_comm]
  · intro b _ hb; simp [hb]
  · simp

/-! ### einsum -/

section
variable {B m n q i o r : Nat} {W : Tensor ℝ} {w : Matrix (Fin m) (Fin n) ℝ}

theorem ein_kj_bj {v : Tensor ℝ} {X : Fin B → Fin n → ℝ} (h1 : W.shape = [m, n]) (h2 : ∀ (i : Fin m) (j : Fin n), W.get [↑i, ↑j] = w i j) (hv : IsVec v B n X) :
    Ret (einsum% "kj,bj->bk" [W, v]) (fun r => IsVec r B m fun b => w *ᵥ X b) := by
  ein [('b', B), ('k', m), ('j', n)] [h1, h2, hv.1, hv.2]
  rfl

theorem ein_kj_bji {A : Tensor ℝ} {Z : Fin B → Matrix (Fin n) (Fin q) ℝ} (h1 : W.shape = [m, n]) (h2 : ∀ (i : Fin m) (j : Fin n), W.get [↑i, ↑j] = w i j)
    (hA : IsMat A B n q Z) : Ret (einsum% "kj,bji->bki" [W, A]) (fun r => IsMat r B m q fun b => w * Z b) := by
  ein [('b', B), ('k', m), ('j', n), ('i', q)] [h1, h2, hA.1, hA.2]
  rfl

theorem ein_mn_bnj_kj {A : Tensor ℝ} {Z : Fin B → Matrix (Fin n) (Fin n) ℝ} (h1 : W.shape = [m, n]) (h2 : ∀ (i : Fin m) (j : Fin n), W.get [↑i, ↑j] = w i j)
    (hA : IsMat A B n n Z) : Ret (einsum% "mn,bnj,kj->bmk" [W, A, W]) (fun r => IsMat r B m m fun b => w * Z b * wᵀ) := by
  ein [('b', B), ('m', m), ('n', n), ('j', n), ('k', m)] [h1, h2, hA.1, hA.2]
  sums

theorem ein_mn_bn_kn {A : Tensor ℝ} {d : Fin B → Fin n → ℝ} (h1 : W.shape = [m, n]) (h2 : ∀ (i : Fin m) (j : Fin n), W.get [↑i, ↑j] = w i j)
    (hA : IsVec A B n d) : Ret (einsum% "mn,bn,kn->bmk" [W, A, W]) (fun r => IsMat r B m m fun b => w * diagonal (d b) * wᵀ) := by
  ein [('b', B), ('m', m), ('n', n), ('k', m)] [h1, h2, hA.1, hA.2]
  sums

theorem ein_mn_bnj_mj {A : Tensor ℝ} {Z : Fin B → Matrix (Fin n) (Fin n) ℝ} (h1 : W.shape = [m, n]) (h2 : ∀ (i : Fin m) (j : Fin n), W.get [↑i, ↑j] = w i j)
    (hA : IsMat A B n n Z) : Ret (einsum% "mn,bnj,mj->bm" [W, A, W]) (fun r => IsVec r B m fun b => diag (w * Z b * wᵀ)) := by
  ein [('b', B), ('m', m), ('n', n), ('j', n)] [h1, h2, hA.1, hA.2]
  sums

theorem ein_mn_bn_mn {A : Tensor ℝ} {d : Fin B → Fin n → ℝ} (h1 : W.shape = [m, n]) (h2 : ∀ (i : Fin m) (j : Fin n), W.get [↑i, ↑j] = w i j)
    (hA : IsVec A B n d) : Ret (einsum% "mn,bn,mn->bm" [W, A, W]) (fun r => IsVec r B m fun b => diag (w * diagonal (d b) * wᵀ)) := by
  ein [('b', B), ('m', m), ('n', n)] [h1, h2, hA.1, hA.2]
  sums

theorem ein_bj_jk {v : Tensor ℝ} {X : Fin B → Fin m → ℝ} (h1 : W.shape = [m, n]) (h2 : ∀ (i : Fin m) (j : Fin n), W.get [↑i, ↑j] = w i j) (hv : IsVec v B m X) :
    Ret (einsum% "bj,jk->bk" [v, W]) (fun r => IsVec r B n fun b => X b ᵥ* w) := by
  ein [('b', B), ('j', m), ('k', n)] [h1, h2, hv.1, hv.2]
  rfl

theorem ein_bij_jk {A : Tensor ℝ} {Z : Fin B → Matrix (Fin q) (Fin m) ℝ} (h1 : W.shape = [m, n]) (h2 : ∀ (i : Fin m) (j : Fin n), W.get [↑i, ↑j] = w i j)
    (hA : IsMat A B q m Z) : Ret (einsum% "bij,jk->bik" [A, W]) (fun r => IsMat r B q n fun b => Z b * w) := by
  ein [('b', B), ('i', q), ('j', m), ('k', n)] [h1, h2, hA.1, hA.2]
  rfl

theorem ein_nm_bnj_jk {A : Tensor ℝ} {Z : Fin B → Matrix (Fin m) (Fin m) ℝ} (h1 : W.shape = [m, n]) (h2 : ∀ (i : Fin m) (j : Fin n), W.get [↑i, ↑j] = w i j)
    (hA : IsMat A B m m Z) : Ret (einsum% "nm,bnj,jk->bmk" [W, A, W]) (fun r => IsMat r B n n fun b => wᵀ * Z b * w) := by
  ein [('b', B), ('n', m), ('m', n), ('j', m), ('k', n)] [h1, h2, hA.1, hA.2]
  sums

theorem ein_nm_bn_nk {A : Tensor ℝ} {d : Fin B → Fin m → ℝ} (h1 : W.shape = [m, n]) (h2 : ∀ (i : Fin m) (j : Fin n), W.get [↑i, ↑j] = w i j)
    (hA : IsVec A B m d) : Ret (einsum% "nm,bn,nk->bmk" [W, A, W]) (fun r => IsMat r B n n fun b => wᵀ * diagonal (d b) * w) := by
  ein [('b', B), ('n', m), ('m', n), ('k', n)] [h1, h2, hA.1, hA.2]
  sums

theorem ein_nm_bnj_jm {A : Tensor ℝ} {Z : Fin B → Matrix (Fin m) (Fin m) ℝ} (h1 : W.shape = [m, n]) (h2 : ∀ (i : Fin m) (j : Fin n), W.get [↑i, ↑j] = w i j)
    (hA : IsMat A B m m Z) : Ret (einsum% "nm,bnj,jm->bm" [W, A, W]) (fun r => IsVec r B n fun b => diag (wᵀ * Z b * w)) := by
  ein [('b', B), ('n', m), ('m', n), ('j', m)] [h1, h2, hA.1, hA.2]
  sums

theorem ein_nm_bn_nm {A : Tensor ℝ} {d : Fin B → Fin m → ℝ} (h1 : W.shape = [m, n]) (h2 : ∀ (i : Fin m) (j : Fin n), W.get [↑i, ↑j] = w i j)
    (hA : IsVec A B m d) : Ret (einsum% "nm,bn,nm->bm" [W, A, W]) (fun r => IsVec r B n fun b => diag (wᵀ * diagonal (d b) * w)) := by
  ein [('b', B), ('n', m), ('m', n)] [h1, h2, hA.1, hA.2]
  sums

theorem ein_bkj_bj {A v : Tensor ℝ} {M : Fin B → Matrix (Fin m) (Fin n) ℝ} {X : Fin B → Fin n → ℝ}
    (hA : IsMat A B m n M) (hv : IsVec v B n X) :
    Ret (einsum% "bkj,bj->bk" [A, v]) (fun r => IsVec r B m fun b => M b *ᵥ X b) := by
  ein [('b', B), ('k', m), ('j', n)] [hA.1, hA.2, hv.1, hv.2]
  rfl

theorem ein_bkji_bj {A v : Tensor ℝ} {F : Fin B → Fin m → Fin n → Fin r → ℝ} {X : Fin B → Fin n → ℝ}
    (hA : IsT4 A B m n r F) (hv : IsVec v B n X) :
    Ret (einsum% "bkji,bj->bki" [A, v]) (fun t => IsMat t B m r fun b k a => ∑ j, F b k j a * X b j) := by
  ein [('b', B), ('k', m), ('j', n), ('i', r)] [hA.1, hA.2, hv.1, hv.2]

theorem ein_bi_bji {A v : Tensor ℝ} {M : Fin B → Matrix (Fin m) (Fin n) ℝ} {X : Fin B → Fin n → ℝ}
    (hv : IsVec v B n X) (hA : IsMat A B m n M) :
    Ret (einsum% "bi,bji->bj" [v, A]) (fun r => IsVec r B m fun b k => ∑ j, X b j * M b k j) := by
  ein [('b', B), ('j', m), ('i', n)] [hA.1, hA.2, hv.1, hv.2]

theorem ein_bi_bj_bij {u x : Tensor ℝ} {U : Fin B → Fin n → ℝ} {X : Fin B → Fin m → ℝ}
    (hu : IsVec u B n U) (hx : IsVec x B m X) :
    Ret (einsum% "bi,bj->bij" [u, x]) fun r => IsMat r B n m fun b i j => U b i * X b j := by
  ein [('b', B), ('i', n), ('j', m)] [hu.1, hu.2, hx.1, hx.2]

theorem ein_bri_bj {A x : Tensor ℝ} {Z : Fin B → Matrix (Fin r) (Fin n) ℝ} {X : Fin B → Fin m → ℝ}
    (hA : IsMat A B r n Z) (hx : IsVec x B m X) :
    Ret (einsum% "bri,bj->brij" [A, x]) fun t => IsT4 t B r n m fun b a k j => Z b a k * X b j := by
  ein [('b', B), ('r', r), ('i', n), ('j', m)] [hA.1, hA.2, hx.1, hx.2]

theorem ein_bij_bkq {C A : Tensor ℝ} {Y : Fin B → Matrix (Fin n) (Fin n) ℝ} {Z : Fin B → Matrix (Fin m) (Fin m) ℝ}
    (hC : IsMat C B n n Y) (hA : IsMat A B m m Z) :
    Ret (einsum% "bij,bkq->bkiqj" [C, A]) fun t => IsT5 t B m n m n fun b k i q j => Y b i j * Z b k q := by
  ein [('b', B), ('i', n), ('j', n), ('k', m), ('q', m)] [hC.1, hC.2, hA.1, hA.2]

theorem ein_bi_bjk {x A : Tensor ℝ} {X : Fin B → Fin n → ℝ} {Z : Fin B → Matrix (Fin m) (Fin m) ℝ}
    (hx : IsVec x B n X) (hA : IsMat A B m m Z) :
    Ret (einsum% "bi,bjk->bjik" [x, A]) fun t => IsT4 t B m n m fun b j i k => X b i * Z b j k := by
  ein [('b', B), ('i', n), ('j', m), ('k', m)] [hx.1, hx.2, hA.1, hA.2]

theorem ein_bj_bii {x A : Tensor ℝ} {X : Fin B → Fin n → ℝ} {Z : Fin B → Matrix (Fin m) (Fin m) ℝ}
    (hx : IsVec x B n X) (hA : IsMat A B m m Z) :
    Ret (einsum% "bj,bii->bij" [x, A]) fun t => IsMat t B m n fun b i j => X b j * Z b i i := by
  ein [('b', B), ('i', m), ('j', n)] [hx.1, hx.2, hA.1, hA.2]

theorem ein_bj_bi {x d : Tensor ℝ} {X : Fin B → Fin n → ℝ} {Z : Fin B → Fin m → ℝ}
    (hx : IsVec x B n X) (hd : IsVec d B m Z) :
    Ret (einsum% "bj,bi->bij" [x, d]) fun t => IsMat t B m n fun b i j => X b j * Z b i := by
  ein [('b', B), ('i', m), ('j', n)] [hx.1, hx.2, hd.1, hd.2]

theorem ein_bk_ij {x e : Tensor ℝ} {X : Fin B → Fin n → ℝ} (hx : IsVec x B n X) (h1 : e.shape = [m, m])
    (h2 : ∀ i j : Fin m, e.get [↑i, ↑j] = (1 : Matrix (Fin m) (Fin m) ℝ) i j) :
    Ret (einsum% "bk,ij->bijk" [x, e]) fun t => IsT4 t B m m n fun b i j k => X b k * (1 : Matrix (Fin m) (Fin m) ℝ) i j := by
  ein [('b', B), ('i', m), ('j', m), ('k', n)] [hx.1, hx.2, h1, h2]

/-! ### flattening -/

theorem flat_vec {t s : Tensor ℝ} {M : Fin B → Matrix (Fin m) (Fin n) ℝ} (ht : IsMat t B m n M) (hs : s.shape = [B, m * n])
    (hd : s.data = t.data) : IsVec s B (m * n) fun b c => M b (finProdFinEquiv.symm c).1 (finProdFinEquiv.symm c).2 := by
  refine ⟨hs, fun b c => ?_⟩
  obtain ⟨⟨k, j⟩, rfl⟩ := finProdFinEquiv.surjective c
  beta_reduce
  rw [get2 hs, hd, Equiv.symm_apply_apply, ← ht.data b k j, finProdFinEquiv_apply_val]
  congr 1
  simp only; ring

theorem unflat_vec {t s : Tensor ℝ} {X : Fin B → Fin (m * n) → ℝ} (ht : IsVec t B (m * n) X) (hs : s.shape = [B, m, n])
    (hd : s.data = t.data) : IsMat s B m n fun b k j => X b (finProdFinEquiv (k, j)) := by
  refine ⟨hs, fun b k j => ?_⟩
  rw [get3 hs, hd]
  beta_reduce
  rw [← ht.data, finProdFinEquiv_apply_val]
  congr 1
  simp only; ring

theorem flat_last {t s : Tensor ℝ} {F : Fin B → Fin r → Fin m → Fin n → ℝ} (ht : IsT4 t B r m n F) (hs : s.shape = [B, r, m * n])
    (hd : s.data = t.data) : IsMat s B r (m * n) fun b a c => F b a (finProdFinEquiv.symm c).1 (finProdFinEquiv.symm c).2 := by
  refine ⟨hs, fun b a c => ?_⟩
  obtain ⟨⟨k, j⟩, rfl⟩ := finProdFinEquiv.surjective c
  have := ht.2 b a k j
  rw [get4 ht.1] at this
  beta_reduce
  rw [get3 hs, hd, Equiv.symm_apply_apply, ← this, finProdFinEquiv_apply_val]
  congr 1
  simp only; ring

theorem flat_mid {t s : Tensor ℝ} {F : Fin B → Fin m → Fin n → Fin r → ℝ} (ht : IsT4 t B m n r F) (hs : s.shape = [B, m * n, r])
    (hd : s.data = t.data) : IsMat s B (m * n) r fun b c a => F b (finProdFinEquiv.symm c).1 (finProdFinEquiv.symm c).2 a := by
  refine ⟨hs, fun b c a => ?_⟩
  obtain ⟨⟨k, j⟩, rfl⟩ := finProdFinEquiv.surjective c
  have := ht.2 b k j a
  rw [get4 ht.1] at this
  beta_reduce
  rw [get3 hs, hd, Equiv.symm_apply_apply, ← this, finProdFinEquiv_apply_val]
  congr 1
  simp only; ring

theorem unflat_mid {t s : Tensor ℝ} {Z : Fin B → Matrix (Fin (m * n)) (Fin r) ℝ} (ht : IsMat t B (m * n) r Z) (hs : s.shape = [B, m, n, r])
    (hd : s.data = t.data) : IsT4 s B m n r fun b k j a => Z b (finProdFinEquiv (k, j)) a := by
  refine ⟨hs, fun b k j a => ?_⟩
  rw [get4 hs, hd]
  beta_reduce
  rw [← ht.data, finProdFinEquiv_apply_val]
  congr 1
  simp only; ring

theorem flat_both {t s : Tensor ℝ} {F : Fin B → Fin m → Fin n → Fin m → Fin n → ℝ} (ht : IsT5 t B m n m n F)
    (hs : s.shape = [B, m * n, m * n]) (hd : s.data = t.data) :
    IsMat s B (m * n) (m * n) fun b c c' => F b (finProdFinEquiv.symm c).1 (finProdFinEquiv.symm c).2
      (finProdFinEquiv.symm c').1 (finProdFinEquiv.symm c').2 := by
  refine ⟨hs, fun b c c' => ?_⟩
  obtain ⟨⟨k, j⟩, rfl⟩ := finProdFinEquiv.surjective c
  obtain ⟨⟨k', j'⟩, rfl⟩ := finProdFinEquiv.surjective c'
  have := ht.2 b k j k' j'
  rw [get5 ht.1] at this
  beta_reduce
  rw [get3 hs, hd, Equiv.symm_apply_apply, Equiv.symm_apply_apply, ← this, finProdFinEquiv_apply_val, finProdFinEquiv_apply_val]
  congr 1
  simp only; ring

end


namespace Linear

section
variable {B i o r : Nat} {W x : Tensor ℝ} {w : Matrix (Fin o) (Fin i) ℝ} {X : Fin B → Fin i → ℝ}

theorem vec_dims2 (hx : IsVec x B i X) : x.dims2 = .ok (B, i) := by simp [dims2, hx.1]
theorem vec_dim0 (hx : IsVec x B i X) : x.dim 0 = .ok B := by simp [dim, hx.1]
theorem vec_dim1 (hx : IsVec x B i X) : x.dim 1 = .ok i := by simp [dim, hx.1]
theorem mat_dim0 {A : Tensor ℝ} {m n : Nat} {Z : Fin B → Matrix (Fin m) (Fin n) ℝ} (hA : IsMat A B m n Z) : A.dim 0 = .ok B := by
  simp [dim, hA.1]
theorem mat_dim1 {A : Tensor ℝ} {m n : Nat} {Z : Fin B → Matrix (Fin m) (Fin n) ℝ} (hA : IsMat A B m n Z) : A.dim 1 = .ok m := by
  simp [dim, hA.1]
theorem mat_numel {A : Tensor ℝ} {m n : Nat} {Z : Fin B → Matrix (Fin m) (Fin n) ℝ} (hA : IsMat A B m n Z) : A.numel = B * (m * n) := by
  simp [numel, hA.1, size_cons, size_nil]
theorem vec_numel {A : Tensor ℝ} {m : Nat} {Z : Fin B → Fin m → ℝ} (hA : IsVec A B m Z) : A.numel = B * m := by
  simp [numel, hA.1, size_cons, size_nil]
theorem t4_numel {A : Tensor ℝ} {a b c d : Nat} {F : Fin a → Fin b → Fin c → Fin d → ℝ} (hA : IsT4 A a b c d F) : A.numel = a * (b * (c * d)) := by
  simp [numel, hA.1, size_cons, size_nil]
theorem t5_numel {A : Tensor ℝ} {a b c d e : Nat} {F : Fin a → Fin b → Fin c → Fin d → Fin e → ℝ} (hA : IsT5 A a b c d e F) :
    A.numel = a * (b * (c * (d * e))) := by
  simp [numel, hA.1, size_cons, size_nil]

theorem flat_ret {t : Tensor ℝ} {m n : Nat} {M : Fin B → Matrix (Fin m) (Fin n) ℝ} (hB : 0 < B) (ht : IsMat t B m n M) :
    Ret (t.reshapeInfer [B] []) fun s => IsVec s B (m * n) fun b c => M b (finProdFinEquiv.symm c).1 (finProdFinEquiv.symm c).2 :=
  (reshapeInfer_ret (q := m * n) (by simpa [size_cons, size_nil] using hB) (by simp [mat_numel ht, size_cons, size_nil])).mono
    fun _ hs => flat_vec ht hs.1 hs.2

/-- the weight-matrix part of `vjp` -/
theorem vjp_core {u : Tensor ℝ} {U : Fin B → Fin o → ℝ} (hB : 0 < B) (hx : IsVec x B i X) (hu : IsVec u B o U) {β : Type}
    {k : Tensor ℝ → Res β} {Q : β → Prop} (hk : ∀ t, IsVec t B (o * i) (fun b => U b ᵥ* WJ o (X b)) → Ret (k t) Q) :
    Ret (do let t ← einsum% "bi,bj->bij" [u, x]; let t ← t.reshapeInfer [B] []; k t) Q := by
  refine (ein_bi_bj_bij hu hx).bind fun t ht => (flat_ret hB ht).bind fun s hs => hk s (hs.congr fun b c => ?_)
  obtain ⟨⟨a, j⟩, rfl⟩ := finProdFinEquiv.surjective c
  rw [vecMul_WJ, Equiv.symm_apply_apply]

/-- the weight-matrix part of `mjp` -/
theorem mjp_core {A : Tensor ℝ} {Z : Fin B → Matrix (Fin r) (Fin o) ℝ} (hB : 0 < B) (hr : 0 < r) (hx : IsVec x B i X)
    (hA : IsMat A B r o Z) {β : Type}
    {k : Tensor ℝ → Res β} {Q : β → Prop} (hk : ∀ t, IsMat t B r (o * i) (fun b => Z b * WJ o (X b)) → Ret (k t) Q) :
    Ret (do let t ← einsum% "bri,bj->brij" [A, x]; let t ← t.reshapeInfer [B, r] []; k t) Q := by
  refine (ein_bri_bj hA hx).bind fun t ht => ?_
  refine (reshapeInfer_ret (q := o * i) (by simp [size_cons, size_nil]; exact ⟨hB, hr⟩)
    (by simp [t4_numel ht, size_cons, size_nil, Nat.mul_assoc])).bind fun s hs => hk s ((flat_last ht hs.1 hs.2).congr fun b a c => ?_)
  obtain ⟨⟨a', j⟩, rfl⟩ := finProdFinEquiv.surjective c
  rw [mul_WJ, Equiv.symm_apply_apply]

/-- the weight-matrix part of `jvp` -/
theorem jvp_core {u : Tensor ℝ} {U : Fin B → Fin (o * i) → ℝ} (hx : IsVec x B i X) (hu : IsVec u B (o * i) U) {β : Type}
    {k : Tensor ℝ → Res β} {Q : β → Prop} (hk : ∀ t, IsVec t B o (fun b => WJ o (X b) *ᵥ U b) → Ret (k t) Q) :
    Ret (do let v ← u.reshape [B, o, i]; let t ← einsum% "bkj,bj->bk" [v, x]; k t) Q := by
  refine (reshape_ret (by simp [vec_numel hu, size_cons, size_nil])).bind fun s hs => ?_
  refine (ein_bkj_bj (unflat_vec hu hs.1 hs.2) hx).bind fun t ht => hk t (ht.congr fun b a => ?_)
  rw [WJ_mulVec]
  rfl

/-- the weight-matrix part of `jmp` -/
theorem jmp_core {A : Tensor ℝ} {Z : Fin B → Matrix (Fin (o * i)) (Fin r) ℝ} (hB : 0 < B) (hi : 0 < i) (ho : 0 < o)
    (hx : IsVec x B i X) (hA : IsMat A B (o * i) r Z) {β : Type}
    {k : Tensor ℝ → Res β} {Q : β → Prop} (hk : ∀ t, IsMat t B o r (fun b => WJ o (X b) * Z b) → Ret (k t) Q) :
    Ret (do let v ← A.reshapeInfer [B, o, i] []; let t ← einsum% "bkji,bj->bki" [v, x]; k t) Q := by
  refine (reshapeInfer_ret (q := r) (by simp [size_cons, size_nil]; exact ⟨hB, ho, hi⟩)
    (by simp [mat_numel hA, size_cons, size_nil, Nat.mul_assoc])).bind fun s hs => ?_
  refine (ein_bkji_bj (unflat_mid hA hs.1 hs.2) hx).bind fun t ht => hk t (ht.congr fun b a c => ?_)
  rw [WJ_mul]

theorem WJ_sq (x : Fin i → ℝ) (d : Fin (o * i) → ℝ) :
    WJ o x * diagonal d * (WJ o x)ᵀ = diagonal fun k => ∑ j, x j * x j * d (finProdFinEquiv (k, j)) := by
  ext k k'
  rw [mul_apply, sum_pr]
  simp only [mul_diagonal, transpose_apply, WJ_pr, diagonal_apply]
  split_ifs with h
  · subst h
    rw [Finset.sum_eq_single k]
    · simp only [if_true]; exact Finset.sum_congr rfl fun _ _ => by ring
    · intro b _ hb; simp [hb]
    · simp
  · refine Finset.sum_eq_zero fun a _ => Finset.sum_eq_zero fun j _ => ?_
    by_cases h1 : a = k
    · subst h1; simp [h]
    · simp [h1]

/-- the weight-matrix part of the diagonal `jmjTp` -/
theorem jmj_core {u : Tensor ℝ} {U : Fin B → Fin (o * i) → ℝ} (hu : IsVec u B (o * i) U) {β : Type}
    {k : Tensor ℝ → Res β} {Q : β → Prop}
    (hk : ∀ t, IsVec t B o (fun b => diag (WJ o (X b) * diagonal (U b) * (WJ o (X b))ᵀ)) → Ret (k t) Q) {xx : Tensor ℝ}
    (hxx : IsVec xx B i fun b j => X b j * X b j) :
    Ret (do let v ← u.reshape [B, o, i]; let t ← einsum% "bi,bji->bj" [xx, v]; k t) Q := by
  refine (reshape_ret (by simp [vec_numel hu, size_cons, size_nil])).bind fun s hs => ?_
  refine (ein_bi_bji hxx (unflat_vec hu hs.1 hs.2)).bind fun t ht => hk t (ht.congr fun b a => ?_)
  rw [WJ_sq, diag_diagonal]

theorem WJT_diag (x : Fin i → ℝ) (Z : Matrix (Fin o) (Fin o) ℝ) (k : Fin o) (j : Fin i) :
    diag ((WJ o x)ᵀ * Z * WJ o x) (finProdFinEquiv (k, j)) = x j * x j * Z k k := by
  rw [diag_apply, mul_WJ, mul_apply]
  simp only [transpose_apply, WJ_pr]
  simp; ring

theorem WJT_full (x : Fin i → ℝ) (Z : Matrix (Fin o) (Fin o) ℝ) (k k' : Fin o) (j j' : Fin i) :
    ((WJ o x)ᵀ * Z * WJ o x) (finProdFinEquiv (k, j)) (finProdFinEquiv (k', j')) = x j * x j' * Z k k' := by
  rw [mul_WJ, mul_apply]
  simp only [transpose_apply, WJ_pr]
  simp; ring

theorem WJT_left (x : Fin i → ℝ) (Z : Matrix (Fin o) (Fin o) ℝ) (k k' : Fin o) (j : Fin i) :
    ((WJ o x)ᵀ * Z) (finProdFinEquiv (k, j)) k' = x j * Z k k' := by
  rw [mul_apply]
  simp only [transpose_apply, WJ_pr]
  simp

/-- full -> diagonal `jTmjp`, weight-matrix part -/
theorem jT_core_fd {A xx : Tensor ℝ} {Z : Fin B → Matrix (Fin o) (Fin o) ℝ} (hB : 0 < B) (hA : IsMat A B o o Z)
    (hxx : IsVec xx B i fun b j => X b j * X b j) {β : Type} {k : Tensor ℝ → Res β} {Q : β → Prop}
    (hk : ∀ t, IsVec t B (o * i) (fun b => diag ((WJ o (X b))ᵀ * Z b * WJ o (X b))) → Ret (k t) Q) :
    Ret (do let t ← einsum% "bj,bii->bij" [xx, A]; let t ← t.reshapeInfer [B] []; k t) Q := by
  refine (ein_bj_bii hxx hA).bind fun t ht => (flat_ret hB ht).bind fun s hs => hk s (hs.congr fun b c => ?_)
  obtain ⟨⟨a, j⟩, rfl⟩ := finProdFinEquiv.surjective c
  rw [WJT_diag, Equiv.symm_apply_apply]

/-- diagonal -> diagonal `jTmjp`, weight-matrix part -/
theorem jT_core_dd {A xx : Tensor ℝ} {d : Fin B → Fin o → ℝ} (hB : 0 < B) (hA : IsVec A B o d)
    (hxx : IsVec xx B i fun b j => X b j * X b j) {β : Type} {k : Tensor ℝ → Res β} {Q : β → Prop}
    (hk : ∀ t, IsVec t B (o * i) (fun b => diag ((WJ o (X b))ᵀ * diagonal (d b) * WJ o (X b))) → Ret (k t) Q) :
    Ret (do let t ← einsum% "bj,bi->bij" [xx, A]; let t ← t.reshapeInfer [B] []; k t) Q := by
  refine (ein_bj_bi hxx hA).bind fun t ht => (flat_ret hB ht).bind fun s hs => hk s (hs.congr fun b c => ?_)
  obtain ⟨⟨a, j⟩, rfl⟩ := finProdFinEquiv.surjective c
  rw [WJT_diag, Equiv.symm_apply_apply]
  simp

/-- diagonal -> full `jTmjp`, weight-matrix block -/
theorem jT_core_df {A C : Tensor ℝ} {Z : Fin B → Matrix (Fin o) (Fin o) ℝ} (hA : IsMat A B o o Z)
    (hC : IsMat C B i i fun b j j' => X b j * X b j') {β : Type} {k : Tensor ℝ → Res β} {Q : β → Prop}
    (hk : ∀ t, IsMat t B (o * i) (o * i) (fun b => (WJ o (X b))ᵀ * Z b * WJ o (X b)) → Ret (k t) Q) :
    Ret (do let t ← einsum% "bij,bkq->bkiqj" [C, A]; let t ← t.reshape [B, i * o, i * o]; k t) Q := by
  refine (ein_bij_bkq hC hA).bind fun t ht => ?_
  refine (reshape_ret (by simp [t5_numel ht, size_cons, size_nil]; left; ring)).bind fun s hs => ?_
  rw [Nat.mul_comm i o] at hs
  refine hk s ((flat_both ht hs.1 hs.2).congr fun b c c' => ?_)
  obtain ⟨⟨a, j⟩, rfl⟩ := finProdFinEquiv.surjective c
  obtain ⟨⟨a', j'⟩, rfl⟩ := finProdFinEquiv.surjective c'
  rw [WJT_full, Equiv.symm_apply_apply, Equiv.symm_apply_apply]

/-- diagonal -> full `jTmjp`, off-diagonal block -/
theorem jT_core_off {A : Tensor ℝ} {Z : Fin B → Matrix (Fin o) (Fin o) ℝ} (hA : IsMat A B o o Z) (hx : IsVec x B i X)
    {β : Type} {k : Tensor ℝ → Res β} {Q : β → Prop}
    (hk : ∀ t, IsMat t B (o * i) o (fun b => (WJ o (X b))ᵀ * Z b) → Ret (k t) Q) :
    Ret (do let t ← einsum% "bi,bjk->bjik" [x, A]; let t ← t.reshape [B, i * o, o]; k t) Q := by
  refine (ein_bi_bjk hx hA).bind fun t ht => ?_
  refine (reshape_ret (by simp [t4_numel ht, size_cons, size_nil]; left; ring)).bind fun s hs => ?_
  rw [Nat.mul_comm i o] at hs
  refine hk s ((flat_mid ht hs.1 hs.2).congr fun b c a' => ?_)
  obtain ⟨⟨a, j⟩, rfl⟩ := finProdFinEquiv.surjective c
  rw [WJT_left, Equiv.symm_apply_apply]

/-- weight-matrix part of the Jacobian -/
theorem jac_core {e : Tensor ℝ} (hx : IsVec x B i X) (h1 : e.shape = [o, o])
    (h2 : ∀ a b : Fin o, e.get [↑a, ↑b] = (1 : Matrix (Fin o) (Fin o) ℝ) a b) {β : Type} {k : Tensor ℝ → Res β} {Q : β → Prop}
    (hk : ∀ t, IsMat t B o (o * i) (fun b => WJ o (X b)) → Ret (k t) Q) :
    Ret (do let t ← einsum% "bk,ij->bijk" [x, e]; let t ← t.reshape [B, o, o * i]; k t) Q := by
  refine (ein_bk_ij hx h1 h2).bind fun t ht => ?_
  refine (reshape_ret (by simp [t4_numel ht, size_cons, size_nil])).bind fun s hs => ?_
  refine hk s ((flat_last ht hs.1 hs.2).congr fun b a c => ?_)
  obtain ⟨⟨a', j⟩, rfl⟩ := finProdFinEquiv.surjective c
  rw [WJ_pr, Equiv.symm_apply_apply, one_apply]
  simp [eq_comm]

end

theorem optW_pos {p : Nat} (hp : 0 < p) {q : Res (Option (Tensor ℝ))} {P : Tensor ℝ → Prop} (h : Ret q (IsSome P)) :
    Ret q (OptW p P) := h.mono fun _ hr => by simpa [OptW, Nat.ne_of_gt hp] using hr

section
variable {i o : Nat} {W : Tensor ℝ} {w : Matrix (Fin o) (Fin i) ℝ} {f : (Fin i → ℝ) → Fin o → ℝ}

theorem getVal_ret {bias : Option (Tensor ℝ)} {B : Nat} {X : Fin B → Fin i → ℝ} {x : Tensor ℝ} {val : Option (Tensor ℝ)}
    (hf : ∀ {B X x}, 0 < B → IsBatch x B [i] i X → Ret (forward W bias x) fun v => IsBatch v B [o] o fun b => f (X b))
    (hB : 0 < B) (hx : IsBatch x B [i] i X) (hv : ∀ v ∈ val, IsBatch v B [o] o fun b => f (X b)) :
    ∃ v, getVal W bias x val = .ok v ∧ IsVec v B o fun b => f (X b) := by
  cases val with
  | none =>
    obtain ⟨v, h1, h2⟩ := hf hB hx
    exact ⟨v, h1, isVec_iff_batch.2 h2⟩
  | some v => exact ⟨v, rfl, isVec_iff_batch.2 (hv v rfl)⟩

/-- products with respect to the input -/
theorem jTI_core {A : Tensor ℝ} {B : Nat} {Z : Fin B → Matrix (Fin o) (Fin o) ℝ} {bias : Option (Tensor ℝ)} {x v : Tensor ℝ}
    {val : Option (Tensor ℝ)} (h1 : W.shape = [o, i]) (h2 : ∀ (a : Fin o) (j : Fin i), W.get [↑a, ↑j] = w a j) (fd td : Bool) (hA : MetricArg fd A B o Z)
    (hv : getVal W bias x val = .ok v) :
    Ret (jTmjp W bias x val (some A) .input fd td false) (IsSome fun t => MetricOut td t B i fun b => wᵀ * Z b * w) := by
  refine Ret.sok hv ?_
  cases fd <;> cases td
  · exact (ein_nm_bnj_jk h1 h2 hA).some
  · exact (ein_nm_bnj_jm h1 h2 hA).some
  · obtain ⟨d, hd, hZ⟩ := hA
    obtain rfl : Z = fun b => diagonal (d b) := funext hZ
    exact (ein_nm_bn_nk h1 h2 hd).some
  · obtain ⟨d, hd, hZ⟩ := hA
    obtain rfl : Z = fun b => diagonal (d b) := funext hZ
    exact (ein_nm_bn_nm h1 h2 hd).some

theorem jmjI_core {A : Tensor ℝ} {B : Nat} {Z : Fin B → Matrix (Fin i) (Fin i) ℝ} {bias : Option (Tensor ℝ)} {x v : Tensor ℝ} {nP : Nat}
    {val : Option (Tensor ℝ)} (h1 : W.shape = [o, i]) (h2 : ∀ (a : Fin o) (j : Fin i), W.get [↑a, ↑j] = w a j) (fd td : Bool) (hA : MetricArg fd A B i Z)
    (hv : getVal W bias x val = .ok v) :
    Ret (jmjTp W bias nP x val (some A) .input fd td false) (IsSome fun t => MetricOut td t B o fun b => w * Z b * wᵀ) := by
  refine Ret.sok hv ?_
  cases fd <;> cases td
  · exact (ein_mn_bnj_kj h1 h2 hA).some
  · exact (ein_mn_bnj_mj h1 h2 hA).some
  · obtain ⟨d, hd, hZ⟩ := hA
    obtain rfl : Z = fun b => diagonal (d b) := funext hZ
    exact (ein_mn_bn_kn h1 h2 hd).some
  · obtain ⟨d, hd, hZ⟩ := hA
    obtain rfl : Z = fun b => diagonal (d b) := funext hZ
    exact (ein_mn_bn_mn h1 h2 hd).some

theorem leafOk_nobias (hi : 0 < i) (ho : 0 < o) (h1 : W.shape = [o, i]) (h2 : ∀ (a : Fin o) (j : Fin i), W.get [↑a, ↑j] = w a j)
    (hf : ∀ {B X x}, 0 < B → IsBatch x B [i] i X → Ret (forward W none x) fun v => IsBatch v B [o] o fun b => f (X b)) :
    LeafOk (layer W none (o * i)) [i] i [o] o (o * i) f (fun _ => w) (WJ o) := by
  have hp : 0 < o * i := Nat.mul_pos ho hi
  have mjpW : ∀ {B : Nat} {X : Fin B → Fin i → ℝ} {x : Tensor ℝ} {val : Option (Tensor ℝ)} {r A} {Z : Fin B → Matrix (Fin r) (Fin o) ℝ}, 0 < B → IsBatch x B [i] i X → 0 < r → IsMat A B r o Z →
      Ret (mjp W none x val (some A) .weight) (IsSome fun t => IsMat t B r (o * i) fun b => Z b * WJ o (X b)) := by
    intro B X x val r A Z hB hx hr hA
    have hx := isVec_iff_batch.2 hx
    refine Ret.sok (vec_dims2 hx) (Ret.sok (mat_dim1 hA) (Ret.sok (mat_dim0 hA) ((Ret.assertR rfl).bind fun _ _ => ?_)))
    exact mjp_core hB hr hx hA fun t ht => Ret.pure ht
  have jmpW : ∀ {B : Nat} {X : Fin B → Fin i → ℝ} {x : Tensor ℝ} {val : Option (Tensor ℝ)} {r A} {Z : Fin B → Matrix (Fin (o * i)) (Fin r) ℝ}, 0 < B → IsBatch x B [i] i X →
      (∀ v ∈ val, IsBatch v B [o] o fun b => f (X b)) → IsMat A B (o * i) r Z →
      Ret (jmp W none (o * i) x val (some A) .weight) (IsSome fun t => IsMat t B o r fun b => WJ o (X b) * Z b) := by
    intro B X x val r A Z hB hx hv hA
    obtain ⟨v, hv1, hv2⟩ := getVal_ret hf hB hx hv
    have hx := isVec_iff_batch.2 hx
    refine Ret.sok (vec_dims2 hx) (Ret.sok hv1 (Ret.sok (vec_dim1 hv2) (Ret.sok (mat_dim1 hA) ((Ret.assertR rfl).bind fun _ _ => ?_))))
    exact jmp_core (k := fun t => some <$> Except.ok t) hB hi ho hx hA fun t ht => Ret.some (Ret.ok ht)
  refine {
    forward := hf, jacI := fun hB hx => ?_, jacW := fun hB hx => ?_
    vjpI := fun hB hx hv hu => ?_, vjpW := fun hB hx hv hu => ?_, mjpI := fun hB hx hv hr hA => ?_
    mjpW := fun hB hx hv hr hA => ?_, jTI := fun fd td hB hx hv hA => ?_, jTW := @fun B X x val A Z fd td hB hx hv hA => ?_
    jT_db := rfl, jvpI := fun hB hx hv hu => ?_, jvpW := fun hB hx hv hu => ?_, jmpI := fun hB hx hv hA => ?_
    jmpW := fun hB hx hv hA => ?_, jmjI := fun fd td hB hx hv hA => ?_
    jmjW := fun h => @fun B X x val A Z fd td hB hx hv hA => ?_, jmj_db := rfl }
  · have hx' := isVec_iff_batch.2 hx
    refine Ret.sok (vec_dims2 hx') ?_
    exact expand_mat _ h1 h2 fun r hr => hr
  · obtain ⟨v, hv1, hv2⟩ := getVal_ret (val := none) hf hB hx (by simp)
    have hx := isVec_iff_batch.2 hx
    refine optW_pos hp (Ret.sok (vec_dims2 hx) (Ret.sok hv1 (Ret.sok (vec_dim1 hv2) (eye_ret.bind fun e he => ?_))))
    exact jac_core hx he.1 he.2 fun t ht => Ret.pure ht
  · exact (ein_bj_jk h1 h2 hu).some
  · have hx := isVec_iff_batch.2 hx
    refine optW_pos hp (Ret.sok (vec_dims2 hx) ?_)
    exact vjp_core hB hx hu fun t ht => Ret.pure ht
  · exact (ein_bij_jk h1 h2 hA).some
  · exact optW_pos hp (mjpW (val := none) hB hx hr hA)
  · obtain ⟨v, hv1, hv2⟩ := getVal_ret hf hB hx hv
    exact jTI_core h1 h2 fd td hA hv1
  · obtain ⟨v, hv1, hv2⟩ := getVal_ret hf hB hx hv
    refine optW_pos hp (Ret.sok hv1 ?_)
    have hx' := isVec_iff_batch.2 hx
    cases fd <;> cases td
    · refine (transpose_mat hA).bind fun t ht => ?_
      obtain ⟨t1, e1, ht1⟩ := (mjpW (val := some v) hB hx ho ht).exists_some
      refine Ret.sok e1 ((transpose_mat ht1).bind fun t2 ht2 => ?_)
      refine (mjpW (val := some v) hB hx hp ht2).mono fun _ h => IsSome.mono h fun _ h => h.congr fun b a c => ?_
      rw [transpose_mul, transpose_transpose]
    · have e : A.shape = [B, o, o] := hA.1
      simp only [e, Res.bind_ok]
      refine (mul_vec hx' hx').bind fun xx hxx => ?_
      exact jT_core_fd hB hA hxx fun t ht => Ret.pure ht
    · obtain ⟨d, hd, hZ⟩ := hA
      obtain rfl := funext hZ
      refine Ret.sok (vec_dims2 hx') (Ret.sok (vec_dim1 hd) ((ein_bi_bj_bij hx' hx').bind fun C hC => (diagEmbed_vec hd).bind fun D hD => ?_))
      exact jT_core_df (k := fun t => some <$> Except.ok t) hD hC fun t ht => Ret.some (Ret.ok ht)
    · obtain ⟨d, hd, hZ⟩ := hA
      obtain rfl := funext hZ
      refine Ret.sok (vec_dims2 hd) ((mul_vec hx' hx').bind fun xx hxx => ?_)
      exact jT_core_dd hB hd hxx fun t ht => Ret.pure ht
  · exact (ein_kj_bj h1 h2 hu).some
  · obtain ⟨v, hv1, hv2⟩ := getVal_ret hf hB hx hv
    have hx := isVec_iff_batch.2 hx
    refine optW_pos hp (Ret.sok (vec_dims2 hx) (Ret.sok hv1 (Ret.sok (vec_dim1 hv2) (Ret.sok (vec_dim1 hu) ((Ret.assertR rfl).bind fun _ _ => ?_)))))
    exact jvp_core (k := fun t => some <$> Except.ok t) hx hu fun t ht => Ret.some (Ret.ok ht)
  · exact (ein_kj_bji h1 h2 hA).some
  · exact optW_pos hp (jmpW hB hx hv hA)
  · obtain ⟨v, hv1, hv2⟩ := getVal_ret hf hB hx hv
    exact jmjI_core (nP := o * i) h1 h2 fd td hA hv1
  · obtain ⟨v, hv1, hv2⟩ := getVal_ret hf hB hx hv
    refine Ret.sok hv1 ?_
    have hx' := isVec_iff_batch.2 hx
    have full : ∀ {A} {Z : Fin B → Matrix (Fin (o * i)) (Fin (o * i)) ℝ}, IsMat A B (o * i) (o * i) Z →
        Ret (jmjTpWeightFull W none (o * i) x v A) (IsSome fun t => IsMat t B o o fun b => WJ o (X b) * Z b * (WJ o (X b))ᵀ) := by
      intro A Z hA
      have hv' : ∀ u ∈ some v, IsBatch u B [o] o fun b => f (X b) := by simpa using isVec_iff_batch.1 hv2
      refine (transpose_mat hA).bind fun t ht => ?_
      obtain ⟨t1, e1, ht1⟩ := (jmpW hB hx hv' ht).exists_some
      refine Ret.sok e1 ((transpose_mat ht1).bind fun t2 ht2 => ?_)
      refine (jmpW hB hx hv' ht2).mono fun _ h => IsSome.mono h fun _ h => h.congr fun b a c => ?_
      rw [transpose_mul, transpose_transpose, Matrix.mul_assoc]
    have dia : ∀ {A} {d : Fin B → Fin (o * i) → ℝ}, IsVec A B (o * i) d →
        Ret (jmjTpWeightDiag none x v A) (fun t => IsVec t B o fun b => diag (WJ o (X b) * diagonal (d b) * (WJ o (X b))ᵀ)) := by
      intro A d hd
      refine Ret.sok (vec_dims2 hd) (Ret.sok (vec_dim1 hx') (Ret.sok (vec_dim1 hv2) ((mul_vec hx' hx').bind fun xx hxx => ?_)))
      refine (reshape_ret (by simp [vec_numel hd, size_cons, size_nil])).bind fun s hs => ?_
      refine (ein_bi_bji hxx (unflat_vec hd hs.1 hs.2)).mono fun t ht => ht.congr fun b a => ?_
      rw [WJ_sq, diag_diagonal]
    cases fd <;> cases td
    · exact full hA
    · obtain ⟨t1, e1, ht1⟩ := (full hA).exists_some
      exact Ret.sok (b := (_, false)) rfl (Ret.sok e1 (ein_bii ht1).some)
    · obtain ⟨d, hd, hZ⟩ := hA
      obtain rfl := funext hZ
      refine (dia hd).bind fun t ht => (diagEmbed_vec ht).some.mono fun _ h => IsSome.mono h fun _ h => h.congr fun b a c => ?_
      rw [WJ_sq, diag_diagonal]
    · obtain ⟨d, hd, hZ⟩ := hA
      obtain rfl := funext hZ
      exact (dia hd).some

variable {bt : Tensor ℝ}

theorem hcat_sandwich {p k : Nat} (A : Matrix (Fin k) (Fin p) ℝ) (Z : Matrix (Fin k) (Fin k) ℝ) :
    (hcat A (1 : Matrix (Fin k) (Fin k) ℝ))ᵀ * Z * hcat A 1 = vcat (hcat (Aᵀ * Z * A) (Aᵀ * Z)) (hcat (Z * A) Z) := by
  rw [transpose_hcat, vcat_mul, vcat_mul, mul_hcat, mul_hcat]
  simp

theorem hcat_sandwich_diag {p k : Nat} (A : Matrix (Fin k) (Fin p) ℝ) (Z : Matrix (Fin k) (Fin k) ℝ) :
    diag ((hcat A (1 : Matrix (Fin k) (Fin k) ℝ))ᵀ * Z * hcat A 1) = Fin.append (diag (Aᵀ * Z * A)) (diag Z) := by
  rw [hcat_sandwich]
  funext c
  refine Fin.addCases (fun c => ?_) (fun c => ?_) c <;> simp [diag_apply]

theorem hcat_one_sq {i o : Nat} (x : Fin i → ℝ) (d : Fin (o * i + o) → ℝ) :
    hcat (WJ o x) 1 * diagonal d * (hcat (WJ o x) 1)ᵀ =
      diagonal fun k => diag (WJ o x * diagonal (wl d) * (WJ o x)ᵀ) k + wr d k := by
  have h : hcat (WJ o x) 1 * diagonal d = hcat (WJ o x * diagonal (wl d)) (diagonal (wr d)) := by
    ext a c
    refine Fin.addCases (fun c => ?_) (fun c => ?_) c
    · simp only [mul_diagonal, hcat_left, wl]
    · rw [mul_diagonal]
      simp only [hcat_right, wr, diagonal_apply, one_apply]
      split_ifs with h <;> simp [h]
  rw [h, transpose_hcat, hcat_mul, transpose_one]
  have e1 : rowsL (vcat (WJ o x)ᵀ (1 : Matrix (Fin o) (Fin o) ℝ)) = (WJ o x)ᵀ := by funext a b; exact vcat_left _ _ _ _
  have e2 : rowsR (vcat (WJ o x)ᵀ (1 : Matrix (Fin o) (Fin o) ℝ)) = 1 := by funext a b; exact vcat_right _ _ _ _
  rw [e1, e2, WJ_sq, Matrix.mul_one, diagonal_add, diag_diagonal]

theorem leafOk_bias (hi : 0 < i) (ho : 0 < o) (h1 : W.shape = [o, i]) (h2 : ∀ (a : Fin o) (j : Fin i), W.get [↑a, ↑j] = w a j)
    (hf : ∀ {B X x}, 0 < B → IsBatch x B [i] i X → Ret (forward W (some bt) x) fun v => IsBatch v B [o] o fun b => f (X b)) :
    LeafOk (layer W (some bt) (o * i + o)) [i] i [o] o (o * i + o) f (fun _ => w) (fun x => hcat (WJ o x) 1) := by
  have hp : 0 < o * i + o := by omega
  have mjpW : ∀ {B : Nat} {X : Fin B → Fin i → ℝ} {x : Tensor ℝ} {val : Option (Tensor ℝ)} {r A} {Z : Fin B → Matrix (Fin r) (Fin o) ℝ}, 0 < B → IsBatch x B [i] i X → 0 < r → IsMat A B r o Z →
      Ret (mjp W (some bt) x val (some A) .weight) (IsSome fun t => IsMat t B r (o * i + o) fun b => Z b * hcat (WJ o (X b)) 1) := by
    intro B X x val r A Z hB hx hr hA
    have hx := isVec_iff_batch.2 hx
    refine Ret.sok (vec_dims2 hx) (Ret.sok (mat_dim1 hA) (Ret.sok (mat_dim0 hA) ((Ret.assertR rfl).bind fun _ _ => ?_)))
    refine mjp_core hB hr hx hA fun t ht => (cat2_cols ht hA).some.mono fun _ h => IsSome.mono h fun _ h => h.congr fun b a c => ?_
    rw [mul_hcat, Matrix.mul_one]
  have jmpW : ∀ {B : Nat} {X : Fin B → Fin i → ℝ} {x : Tensor ℝ} {val : Option (Tensor ℝ)} {r A} {Z : Fin B → Matrix (Fin (o * i + o)) (Fin r) ℝ}, 0 < B → IsBatch x B [i] i X →
      (∀ v ∈ val, IsBatch v B [o] o fun b => f (X b)) → IsMat A B (o * i + o) r Z →
      Ret (jmp W (some bt) (o * i + o) x val (some A) .weight) (IsSome fun t => IsMat t B o r fun b => hcat (WJ o (X b)) 1 * Z b) := by
    intro B X x val r A Z hB hx hv hA
    obtain ⟨v, hv1, hv2⟩ := getVal_ret hf hB hx hv
    have hx := isVec_iff_batch.2 hx
    refine Ret.sok (vec_dims2 hx) (Ret.sok hv1 (Ret.sok (vec_dim1 hv2) (Ret.sok (mat_dim1 hA) ((Ret.assertR rfl).bind fun _ _ => ?_))))
    obtain ⟨A1, eA1, hA1⟩ := slice_rows (lo := 0) (q := o * i) hA (by omega)
    obtain ⟨A2, eA2, hA2⟩ := slice_rows (lo := o * i) (q := o) hA (by omega)
    replace hA1 : IsMat A1 B (o * i) r fun b => rowsL (Z b) := hA1.congr fun b a c => by
      show Z b _ c = Z b _ c; congr 1; ext; simp
    replace hA2 : IsMat A2 B o r fun b => rowsR (Z b) := hA2
    refine Ret.sok (by simpa using eA1) ?_
    refine jmp_core hB hi ho hx hA1 fun t ht => Ret.sok eA2 ((add_mat ht hA2).some.mono fun _ h => IsSome.mono h fun _ h => h.congr fun b a c => ?_)
    rw [hcat_mul, Matrix.one_mul]
  refine {
    forward := hf, jacI := fun hB hx => ?_, jacW := fun hB hx => ?_
    vjpI := fun hB hx hv hu => ?_, vjpW := fun hB hx hv hu => ?_, mjpI := fun hB hx hv hr hA => ?_
    mjpW := fun hB hx hv hr hA => ?_, jTI := fun fd td hB hx hv hA => ?_, jTW := @fun B X x val A Z fd td hB hx hv hA => ?_
    jT_db := rfl, jvpI := fun hB hx hv hu => ?_, jvpW := @fun B X x val u U hB hx hv hu => ?_, jmpI := fun hB hx hv hA => ?_
    jmpW := fun hB hx hv hA => ?_, jmjI := fun fd td hB hx hv hA => ?_
    jmjW := fun h => @fun B X x val A Z fd td hB hx hv hA => ?_, jmj_db := rfl }
  · have hx' := isVec_iff_batch.2 hx
    refine Ret.sok (vec_dims2 hx') ?_
    exact expand_mat _ h1 h2 fun r hr => hr
  · obtain ⟨v, hv1, hv2⟩ := getVal_ret (val := none) hf hB hx (by simp)
    have hx := isVec_iff_batch.2 hx
    refine optW_pos hp (Ret.sok (vec_dims2 hx) (Ret.sok hv1 (Ret.sok (vec_dim1 hv2) (eye_ret.bind fun e he => ?_))))
    refine jac_core hx he.1 he.2 fun t ht => unsqueeze_expand _ he.1 he.2 fun E hE => ?_
    exact (cat2_cols ht hE).some
  · exact (ein_bj_jk h1 h2 hu).some
  · have hx := isVec_iff_batch.2 hx
    refine optW_pos hp (Ret.sok (vec_dims2 hx) ?_)
    refine vjp_core hB hx hu fun t ht => (cat2_vec ht hu).some.mono fun _ h => IsSome.mono h fun _ h => h.congr fun b a => ?_
    rw [vecMul_hcat, vecMul_one]
  · exact (ein_bij_jk h1 h2 hA).some
  · exact optW_pos hp (mjpW (val := none) hB hx hr hA)
  · obtain ⟨v, hv1, hv2⟩ := getVal_ret hf hB hx hv
    exact jTI_core h1 h2 fd td hA hv1
  · obtain ⟨v, hv1, hv2⟩ := getVal_ret hf hB hx hv
    refine optW_pos hp (Ret.sok hv1 ?_)
    have hx' := isVec_iff_batch.2 hx
    cases fd <;> cases td
    · refine (transpose_mat hA).bind fun t ht => ?_
      obtain ⟨t1, e1, ht1⟩ := (mjpW (val := some v) hB hx ho ht).exists_some
      refine Ret.sok e1 ((transpose_mat ht1).bind fun t2 ht2 => ?_)
      refine (mjpW (val := some v) hB hx hp ht2).mono fun _ h => IsSome.mono h fun _ h => h.congr fun b a c => ?_
      rw [transpose_mul, transpose_transpose]
    · have e : A.shape = [B, o, o] := hA.1
      simp only [e, Res.bind_ok]
      refine (mul_vec hx' hx').bind fun xx hxx => ?_
      refine jT_core_fd hB hA hxx fun t ht => (ein_bii hA).bind fun e he => ?_
      refine (cat2_vec ht he).some.mono fun _ h => IsSome.mono h fun _ h => h.congr fun b a => ?_
      rw [hcat_sandwich_diag]
    · obtain ⟨d, hd, hZ⟩ := hA
      obtain rfl := funext hZ
      refine Ret.sok (vec_dims2 hx') (Ret.sok (vec_dim1 hd) ((ein_bi_bj_bij hx' hx').bind fun C hC => (diagEmbed_vec hd).bind fun D hD => ?_))
      refine jT_core_df hD hC fun t ht => jT_core_off hD hx' fun t1 ht1 => (cat2_cols ht ht1).bind fun top htop => ?_
      refine (transpose_mat ht1).bind fun ot hot => (cat2_cols hot hD).bind fun bot hbot => ?_
      refine (cat2_rows htop hbot).some.mono fun _ h => IsSome.mono h fun _ h => h.congr fun b a c => ?_
      rw [hcat_sandwich, transpose_mul, transpose_transpose, diagonal_transpose]
    · obtain ⟨d, hd, hZ⟩ := hA
      obtain rfl := funext hZ
      refine Ret.sok (vec_dims2 hd) ((mul_vec hx' hx').bind fun xx hxx => ?_)
      refine jT_core_dd hB hd hxx fun t ht => ?_
      refine (cat2_vec ht hd).some.mono fun _ h => IsSome.mono h fun _ h => h.congr fun b a => ?_
      rw [hcat_sandwich_diag, diag_diagonal]
  · exact (ein_kj_bj h1 h2 hu).some
  · obtain ⟨v, hv1, hv2⟩ := getVal_ret hf hB hx hv
    have hx := isVec_iff_batch.2 hx
    refine optW_pos hp (Ret.sok (vec_dims2 hx) (Ret.sok hv1 (Ret.sok (vec_dim1 hv2) (Ret.sok (vec_dim1 hu) ((Ret.assertR rfl).bind fun _ _ => ?_)))))
    obtain ⟨A1, eA1, hA1⟩ := slice_vec (lo := 0) (m := o * i) hu (by omega)
    obtain ⟨A2, eA2, hA2⟩ := slice_vec (lo := o * i) (m := o) hu (by omega)
    replace hA1 := hA1.congr (Y := fun b => wl (U b)) fun b a => by
      simp only [wl]; congr 1; ext; simp
    replace hA2 := hA2.congr (Y := fun b => wr (U b)) fun b a => rfl
    refine Ret.sok (by simpa using eA1) ?_
    refine jvp_core hx hA1 fun t ht => Ret.sok eA2 ((add_vec ht hA2).some.mono fun _ h => IsSome.mono h fun _ h => h.congr fun b a => ?_)
    rw [hcat_mulVec, one_mulVec]
  · exact (ein_kj_bji h1 h2 hA).some
  · exact optW_pos hp (jmpW hB hx hv hA)
  · obtain ⟨v, hv1, hv2⟩ := getVal_ret hf hB hx hv
    exact jmjI_core (nP := o * i + o) h1 h2 fd td hA hv1
  · obtain ⟨v, hv1, hv2⟩ := getVal_ret hf hB hx hv
    refine Ret.sok hv1 ?_
    have hx' := isVec_iff_batch.2 hx
    have full : ∀ {A} {Z : Fin B → Matrix (Fin (o * i + o)) (Fin (o * i + o)) ℝ}, IsMat A B (o * i + o) (o * i + o) Z →
        Ret (jmjTpWeightFull W (some bt) (o * i + o) x v A) (IsSome fun t => IsMat t B o o fun b => hcat (WJ o (X b)) 1 * Z b * (hcat (WJ o (X b)) 1)ᵀ) := by
      intro A Z hA
      have hv' : ∀ u ∈ some v, IsBatch u B [o] o fun b => f (X b) := by simpa using isVec_iff_batch.1 hv2
      refine (transpose_mat hA).bind fun t ht => ?_
      obtain ⟨t1, e1, ht1⟩ := (jmpW hB hx hv' ht).exists_some
      refine Ret.sok e1 ((transpose_mat ht1).bind fun t2 ht2 => ?_)
      refine (jmpW hB hx hv' ht2).mono fun _ h => IsSome.mono h fun _ h => h.congr fun b a c => ?_
      rw [transpose_mul, transpose_transpose, Matrix.mul_assoc]
    have dia : ∀ {A} {d : Fin B → Fin (o * i + o) → ℝ}, IsVec A B (o * i + o) d →
        Ret (jmjTpWeightDiag (some bt) x v A) (fun t => IsVec t B o fun b => diag (hcat (WJ o (X b)) 1 * diagonal (d b) * (hcat (WJ o (X b)) 1)ᵀ)) := by
      intro A d hd
      refine Ret.sok (vec_dims2 hd) (Ret.sok (vec_dim1 hx') (Ret.sok (vec_dim1 hv2) ((mul_vec hx' hx').bind fun xx hxx => ?_)))
      obtain ⟨A1, eA1, hA1⟩ := slice_vec (lo := 0) (m := o * i) hd (by omega)
      obtain ⟨A2, eA2, hA2⟩ := slice_vec (lo := o * i) (m := o) hd (by omega)
      replace hA1 := hA1.congr (Y := fun b => wl (d b)) fun b a => by
        simp only [wl]; congr 1; ext; simp
      replace hA2 := hA2.congr (Y := fun b => wr (d b)) fun b a => rfl
      refine Ret.sok (by simpa using eA1) ?_
      refine jmj_core hA1 (fun t ht => Ret.sok eA2 ((add_vec ht hA2).mono fun _ h => h.congr fun b a => ?_)) hxx
      rw [hcat_one_sq, diag_diagonal]
      rfl
    cases fd <;> cases td
    · exact full hA
    · obtain ⟨t1, e1, ht1⟩ := (full hA).exists_some
      exact Ret.sok (b := (_, false)) rfl (Ret.sok e1 (ein_bii ht1).some)
    · obtain ⟨d, hd, hZ⟩ := hA
      obtain rfl := funext hZ
      refine (dia hd).bind fun t ht => (diagEmbed_vec ht).some.mono fun _ h => IsSome.mono h fun _ h => h.congr fun b a c => ?_
      rw [hcat_one_sq, WJ_sq, diag_diagonal]
    · obtain ⟨d, hd, hZ⟩ := hA
      obtain rfl := funext hZ
      exact (dia hd).some

end

theorem forward_ret {bias : Option (Tensor ℝ)} {i o : Nat} {W : Tensor ℝ} (hW : W.shape = [o, i]) (ho : 0 < o)
    (hb : ∀ t ∈ bias, t.shape = [o]) {B : Nat} {X : Fin B → Fin i → ℝ} {x : Tensor ℝ} (hx : IsBatch x B [i] i X) :
    Ret (forward W bias x) fun v => IsBatch v B [o] o fun b k => ∑ j : Fin i, W.data (k * i + j) * X b j +
      match bias with | some t => t.data k | none => 0 := by
  have key : ∀ (b : Fin B) (k : Fin o), (sumRange i fun j => x.data ((((b : ℕ) * o + k) / o) * i + j) * W.data ((((b : ℕ) * o + k) % o) * i + j)) =
      ∑ j : Fin i, W.data (k * i + j) * X b j := by
    intro b k
    have e1 : ((b : ℕ) * o + k) / o = b := by
      rw [Nat.mul_comm, Nat.mul_add_div ho, Nat.div_eq_of_lt k.2]; simp
    have e2 : ((b : ℕ) * o + k) % o = k := by
      rw [Nat.mul_comm, Nat.mul_add_mod, Nat.mod_eq_of_lt k.2]
    rw [sumRange_eq, e1, e2]
    exact Finset.sum_congr rfl fun j _ => by rw [hx.2 b j, mul_comm]
  cases bias with
  | none =>
    simp only [forward, Torch.linear, hx.1, hW, List.getLast?_cons_cons, List.getLast?_singleton, if_true]
    refine Ret.ok ⟨rfl, fun b k => ?_⟩
    dsimp only
    rw [add_zero]
    exact key b k
  | some t =>
    simp only [forward, Torch.linear, hx.1, hW, List.getLast?_cons_cons, List.getLast?_singleton, if_true, hb t rfl]
    refine Ret.ok ⟨rfl, fun b k => ?_⟩
    have e2 : ((b : ℕ) * o + k) % o = k := by
      rw [Nat.mul_comm, Nat.mul_add_mod, Nat.mod_eq_of_lt k.2]
    dsimp only
    rw [key b k, e2]

end Linear

theorem hcat_empty {k p : Nat} (A : Matrix (Fin k) (Fin p) ℝ) (C : Matrix (Fin k) (Fin 0) ℝ) : hcat A C = A := by
  funext a c
  exact hcat_left A C a c

open Linear in
/-- `nnj.Linear` meets the contract for the semantics `linearSem`. -/
theorem leafOk_linear (wId : Nat) (bId : Option Nat) {i o : Nat} (hi : 0 < i) (ho : 0 < o) (st : Store ℝ)
    (hW : (st.param wId).shape = [o, i]) (hb : ∀ b ∈ bId, (st.param b).shape = [o]) :
    LeafOk (Linear.layer (st.param wId) (bId.map st.param) (o * i + biasLen bId o)) [i] i [o] o (o * i + biasLen bId o)
      (linearF bId i o (linearW wId bId i o st))
      (fun _ k j => linearW wId bId i o st (Fin.castAdd _ (finProdFinEquiv (k, j))))
      (fun x => hcat (fun k c => if (finProdFinEquiv.symm c).1 = k then x (finProdFinEquiv.symm c).2 else 0)
        (fun k c => if c.val = k.val then 1 else 0)) := by
  have hw : ∀ (a : Fin o) (j : Fin i), (st.param wId).get [(a : ℕ), (j : ℕ)] =
      linearW wId bId i o st (Fin.castAdd _ (finProdFinEquiv (a, j))) := by
    intro a j
    rw [get2 hW, linearW, Fin.append_left, finProdFinEquiv_apply_val]
    congr 1
    simp only; ring
  have hf : ∀ {B : Nat} {X : Fin B → Fin i → ℝ} {x : Tensor ℝ}, 0 < B → IsBatch x B [i] i X →
      Ret (Linear.forward (st.param wId) (bId.map st.param) x) fun v => IsBatch v B [o] o fun b => linearF bId i o (linearW wId bId i o st) (X b) := by
    intro B X x _ hx
    refine (forward_ret hW ho (by simpa using hb) hx).mono fun v hv => hv.congr fun b k => ?_
    rw [linearF]
    congr 1
    · refine Finset.sum_congr rfl fun j _ => ?_
      rw [← hw, get2 hW]
    · cases bId with
      | none => simp [biasLen]
      | some c => simp [biasLen, linearW]
  cases bId with
  | none =>
    have := leafOk_nobias (w := fun k j => linearW wId none i o st (Fin.castAdd _ (finProdFinEquiv (k, j)))) (f := linearF none i o (linearW wId none i o st)) hi ho hW hw hf
    have e : (fun x : Fin i → ℝ => hcat (WJ o x) (fun (k : Fin o) (c : Fin 0) => if c.val = k.val then (1 : ℝ) else 0)) = WJ o :=
      funext fun x => hcat_empty _ _
    rw [← e] at this
    exact this
  | some c =>
    have := leafOk_bias (bt := st.param c) (w := fun k j => linearW wId (some c) i o st (Fin.castAdd _ (finProdFinEquiv (k, j)))) (f := linearF (some c) i o (linearW wId (some c) i o st)) hi ho hW hw hf
    have e : (1 : Matrix (Fin o) (Fin o) ℝ) = fun k c => if c.val = k.val then (1 : ℝ) else 0 := by
      funext k c
      rw [one_apply]
      simp only [Fin.ext_iff, eq_comm]
    rw [e] at this
    exact this

end NNJ
