import Verif.Proofs.ConvSums

/-! Conv2d (stride 1, no dilation, one group) meets the contract (reverse mode). -/

namespace NNJ
open Tensor Matrix
namespace Conv2d

section
variable {cfg : Cfg} {c1 h1 w1 c2 h2 w2 kh kw ph pw : Nat} {B r : Nat}
  {x : Tensor ℝ} {X : Fin B → Fin (c1 * h1 * w1) → ℝ}

theorem isVec_kix {t : Tensor ℝ} {Y : Fin B → Fin (c2 * c1 * kh * kw) → ℝ} (hs : t.shape = [B, c2 * c1 * kh * kw])
    (e : ∀ (b : Fin B) (o : Fin c2) (c : Fin c1) (i : Fin kh) (j : Fin kw),
      t.data ((b : Nat) * (c2 * c1 * kh * kw) + (((o * c1 + c) * kh + i) * kw + j)) = Y b (kix o c i j)) :
    IsVec t B (c2 * c1 * kh * kw) Y := by
  refine ⟨hs, fun b k => ?_⟩
  obtain ⟨o, c, i, j, rfl⟩ := kix_surj k
  rw [get2 hs, ← e, kix_val]

theorem kix_lt (o : Fin c2) (c : Fin c1) (i : Fin kh) (j : Fin kw) : ((o * c1 + c) * kh + i) * kw + j < c2 * c1 * kh * kw :=
  lt_pair (lt_pair (lt_pair o.2 c.2) i.2) j.2

/-- a sample of a batch, reversed, with the channels first -/
theorem sample_rev (hx : IsBatch x B [c1, h1, w1] (c1 * h1 * w1) X) :
    Ret (x.flip [-2, -1]) fun xf => N4 xf B c1 h1 w1 fun b c u v => x.data (((b * c1 + c) * h1 + (h1 - 1 - u)) * w1 + (w1 - 1 - v)) :=
  flip_4_hw hx.n4

theorem vmap_head {m : Tensor ℝ} {s2 : List Nat} {a b c d i : Nat} {F : Nat → Nat → Nat → Nat → ℝ} {xf : Tensor ℝ}
    {f : Tensor ℝ → Tensor ℝ → Res (Tensor ℝ)} {P : Tensor ℝ → Prop} (hx : N4 xf a b c d F) (hm : m.shape = a :: s2) (hi : i < a)
    (h : ∀ xi mi, N4 xi b 1 c d (fun j _ k l => F i j k l) → m.select0 i = .ok mi → Ret (f xi mi) P) :
    Ret (xf.select0 i >>= fun a => m.select0 i >>= fun b => do
      let a ← a.unsqueeze 0
      let a ← a.movedim [0] [1]
      f a b) P := by
  obtain ⟨x1, e1, _⟩ := select0_ret hx.1 hi
  obtain ⟨m1, e2, _⟩ := select0_ret hm hi
  obtain ⟨x2, e3, h3⟩ := selectUnsq_4 hx hi
  rw [e1] at e3 ⊢
  rw [e2]
  simp only [Res.bind_ok] at e3 ⊢
  rw [e3]
  refine (movedim_4_01 h3).bind fun x3 h4 => h x3 m1 h4 e2

theorem vjpW_core (hf : Fits cfg h1 w1 h2 w2 kh kw ph pw) (hB : 0 < B) (hx : IsBatch x B [c1, h1, w1] (c1 * h1 * w1) X)
    {v : Tensor ℝ} {U : Fin B → Fin (c2 * h2 * w2) → ℝ} {F : Nat → Nat → Nat → Nat → ℝ}
    (hv : N4 v B c2 h2 w2 fun b o y z => F b o (h2 - 1 - y) (w2 - 1 - z))
    (eF : ∀ (b : Fin B) (o : Fin c2) (y : Fin h2) (z : Fin w2), F b o y z = U b (pix o y z)) :
    Ret (vjpKernel cfg x B c1 c2 h2 w2 v)
      fun t => IsVec t B (c2 * c1 * kh * kw) fun b => U b ᵥ* convJK c1 h1 w1 c2 h2 w2 kh kw ph pw (X b) := by
  -- the result of one sample
  let P : Nat → (Nat → ℝ) → Prop := fun b d => ∀ o c i j, o < c2 → c < c1 → i < kh → j < kw → d (((o * c1 + c) * kh + i) * kw + j) =
    wp h1 w1 h2 w2 ph pw (fun u v => x.data (((b * c1 + c) * h1 + u) * w1 + v)) (F b o) i j
  have fin : ∀ t : Tensor ℝ, (t.shape = B :: [c2 * c1 * kh * kw] ∧ ∀ i, i < B → ∃ d, P i d ∧ ∀ k, k < size [c2 * c1 * kh * kw] →
      t.data (i * size [c2 * c1 * kh * kw] + k) = d k) →
      IsVec t B (c2 * c1 * kh * kw) fun b => U b ᵥ* convJK c1 h1 w1 c2 h2 w2 kh kw ph pw (X b) := by
    rintro t ⟨h1', h2'⟩
    refine isVec_kix h1' fun b o c i j => ?_
    obtain ⟨d, hd, h3⟩ := h2' b b.2
    have := h3 _ (by simpa using kix_lt o c i j)
    simp only [size_cons, size_nil, mul_one] at this
    rw [this, hd o c i j o.2 c.2 i.2 j.2]
    exact sum_convJK o c i j (fun r s => eF b o r s) fun u v => hx.img b c u v
  rw [vjpKernel, hf.kernel]
  split_ifs with hu
  · refine (sample_rev hx).bind fun xf hxf => ?_
    refine (vmap2_spec' (s := [c2 * c1 * kh * kw]) (P := P) hB hxf.1 hv.1 fun i hi => ?_).mono fin
    refine vmap_head hxf hv.1 hi fun xi mi hxi hmi => ?_
    obtain ⟨m2, e3, h3⟩ := selectUnsq_4 hv hi
    rw [hmi] at e3
    simp only [Res.bind_ok] at e3
    rw [e3]
    refine (movedim_4_01 h3).bind fun m3 h4 => ?_
    exact vjpSingle_spec hf (V := F i) (X := fun c u v => x.data (((i * c1 + c) * h1 + u) * w1 + v)) h4 hxi
  · refine (movedim_4_01 hv).bind fun v1 hv1 => ?_
    refine (fillRows_spec' (s := [c2 * c1 * kh * kw]) (P := P) rfl fun i hi => ?_).mono fin
    refine (slice_4_0 hx.n4 hi).bind fun x1 hx1 => (flip_4_hw hx1).bind fun x2 hx2 => (movedim_4_01 hx2).bind fun x3 hx3 => ?_
    refine (slice_4_1 hv1 hi).bind fun v2 hv2 => ?_
    exact vjpSingle_spec hf (V := F i) (X := fun c u v => x.data (((i * c1 + c) * h1 + u) * w1 + v)) hv2 hx3

/-! ### views -/

theorem _root_.NNJ.IsMat.n3 {t : Tensor ℝ} {m n : Nat} {M : Fin B → Matrix (Fin m) (Fin n) ℝ} (ht : IsMat t B m n M) :
    N3 t B m n fun b i j => t.data ((b * m + i) * n + j) := N3.of_data ht.1 fun _ _ _ _ _ _ => rfl

theorem _root_.NNJ.IsMat.data' {t : Tensor ℝ} {m n : Nat} {M : Fin B → Matrix (Fin m) (Fin n) ℝ} (ht : IsMat t B m n M)
    (b : Fin B) (i : Fin m) (j : Fin n) : t.data (((b : Nat) * m + i) * n + j) = M b i j := by
  rw [← ht.data b i j]; congr 1; ring

theorem _root_.NNJ.N3.mat {t : Tensor ℝ} {m n : Nat} {F : Nat → Nat → Nat → ℝ} {M : Fin B → Matrix (Fin m) (Fin n) ℝ} (h : N3 t B m n F)
    (e : ∀ (b : Fin B) (i : Fin m) (j : Fin n), F b i j = M b i j) : IsMat t B m n M :=
  ⟨h.1, fun b i j => by rw [h.2 b i j b.2 i.2 j.2, e]⟩

theorem swap_mat {t : Tensor ℝ} {m n : Nat} {M : Fin B → Matrix (Fin m) (Fin n) ℝ} (ht : IsMat t B m n M) :
    Ret (t.movedim [-1] [-2]) fun r => IsMat r B n m fun b => (M b)ᵀ :=
  (movedim_3_swap ht.n3).mono fun _ hr => hr.mat fun b i j => ht.data' b j i

theorem swap_mat' {t : Tensor ℝ} {m n : Nat} {M : Fin B → Matrix (Fin m) (Fin n) ℝ} (ht : IsMat t B m n M) :
    Ret (t.movedim [-2] [-1]) fun r => IsMat r B n m fun b => (M b)ᵀ :=
  (movedim_3_swap' ht.n3).mono fun _ hr => hr.mat fun b i j => ht.data' b j i

theorem swap_mat12 {t : Tensor ℝ} {m n : Nat} {M : Fin B → Matrix (Fin m) (Fin n) ℝ} (ht : IsMat t B m n M) :
    Ret (t.movedim [1] [2]) fun r => IsMat r B n m fun b => (M b)ᵀ :=
  (movedim_3_12 ht.n3).mono fun _ hr => hr.mat fun b i j => ht.data' b j i

/-- one matrix -/
def M2 (t : Tensor ℝ) (m n : Nat) (M : Matrix (Fin m) (Fin n) ℝ) : Prop :=
  t.shape = [m, n] ∧ ∀ (i : Fin m) (j : Fin n), t.get [i, j] = M i j

theorem M2.data {t : Tensor ℝ} {m n : Nat} {M : Matrix (Fin m) (Fin n) ℝ} (h : M2 t m n M) (i : Fin m) (j : Fin n) :
    t.data ((i : Nat) * n + j) = M i j := by rw [← h.2 i j, get2 h.1]

theorem M2.of_data {t : Tensor ℝ} {m n : Nat} {M : Matrix (Fin m) (Fin n) ℝ} (hs : t.shape = [m, n])
    (e : ∀ (i : Fin m) (j : Fin n), t.data ((i : Nat) * n + j) = M i j) : M2 t m n M :=
  ⟨hs, fun i j => by rw [get2 hs, e]⟩

theorem m2_kix {t : Tensor ℝ} {rows : Nat} {Y : Matrix (Fin (c2 * c1 * kh * kw)) (Fin rows) ℝ} (hs : t.shape = [c2 * c1 * kh * kw, rows])
    (e : ∀ (o : Fin c2) (c : Fin c1) (i : Fin kh) (j : Fin kw) (q : Fin rows),
      t.data ((((o * c1 + c) * kh + i) * kw + j) * rows + q) = Y (kix o c i j) q) : M2 t (c2 * c1 * kh * kw) rows Y := by
  refine M2.of_data hs fun k q => ?_
  obtain ⟨o, c, i, j, rfl⟩ := kix_surj k
  rw [← e, kix_val]

theorem cat2_m2 {p q n : Nat} {a c : Tensor ℝ} {M : Matrix (Fin p) (Fin n) ℝ} {N : Matrix (Fin q) (Fin n) ℝ}
    (ha : M2 a p n M) (hc : M2 c q n N) : Ret (cat2 a c 0) fun r => M2 r (p + q) n (vcat M N) := by
  simp only [cat2, ha.1, hc.1, List.getElem?_cons_zero, List.set, if_true]
  refine Ret.ok ⟨rfl, fun i j => ?_⟩
  rw [get_ofFn _ (by simp)]
  simp only [List.set, List.getD_cons_zero]
  refine Fin.addCases (fun i => ?_) (fun i => ?_) i
  · simp only [Fin.val_castAdd, i.2, if_true, vcat_left]; exact ha.2 i j
  · simp only [Fin.val_natAdd, Nat.not_lt.2 (Nat.le_add_right p i), if_false, vcat_right, Nat.add_sub_cancel_left]; exact hc.2 i j

/-- products with the weight Jacobian, kernel part: one sample, by columns -/
theorem mjpSingle_mat (hf : Fits cfg h1 w1 h2 w2 kh kw ph pw) {rows : Nat} {m inp : Tensor ℝ} {F : Nat → Nat → Nat → Nat → ℝ}
    {Z : Matrix (Fin rows) (Fin (c2 * h2 * w2)) ℝ} {y : Fin (c1 * h1 * w1) → ℝ} {D : Nat → Nat → Nat → ℝ}
    (hm : N5 m c2 1 h2 w2 rows fun a _ y z q => F a q (h2 - 1 - y) (w2 - 1 - z))
    (hi : N4 inp c1 1 h1 w1 fun c _ u v => D c (h1 - 1 - u) (w1 - 1 - v))
    (eF : ∀ (o : Fin c2) (q : Fin rows) (r : Fin h2) (s : Fin w2), F o q r s = Z q (pix o r s))
    (eD : ∀ (c : Fin c1) (u : Fin h1) (v : Fin w1), D c u v = y (pix c u v)) :
    Ret (mjpSingle cfg c1 c2 h2 w2 rows m inp) fun r =>
      M2 r (c2 * c1 * kh * kw) rows (Z * convJK c1 h1 w1 c2 h2 w2 kh kw ph pw y)ᵀ := by
  refine (mjpSingle_spec hf hm hi).mono fun r hr => m2_kix hr.1 fun o c i j q => ?_
  rw [hr.2 o c i j q o.2 c.2 i.2 j.2 q.2]
  exact sum_convJK (U := Z q) o c i j (fun r s => eF o q r s) fun u v => eD c u v

theorem mjpW_core (hf : Fits cfg h1 w1 h2 w2 kh kw ph pw) (hB : 0 < B) (hx : IsBatch x B [c1, h1, w1] (c1 * h1 * w1) X)
    {rows : Nat} {m : Tensor ℝ} {Z : Fin B → Matrix (Fin rows) (Fin (c2 * h2 * w2)) ℝ} {F : Nat → Nat → Nat → Nat → Nat → ℝ}
    (hm : N5 m B c2 h2 w2 rows fun b o y z q => F b o q (h2 - 1 - y) (w2 - 1 - z))
    (eF : ∀ (b : Fin B) (o : Fin c2) (q : Fin rows) (y : Fin h2) (z : Fin w2), F b o q y z = Z b q (pix o y z)) :
    Ret (mjpKernel cfg x B c1 c2 h2 w2 rows m)
      fun t => IsMat t B (c2 * c1 * kh * kw) rows fun b => (Z b * convJK c1 h1 w1 c2 h2 w2 kh kw ph pw (X b))ᵀ := by
  let P : Nat → (Nat → ℝ) → Prop := fun b d => ∀ hb : b < B, ∀ (i : Fin (c2 * c1 * kh * kw)) (j : Fin rows), d (i * rows + j)
    = (Z ⟨b, hb⟩ * convJK c1 h1 w1 c2 h2 w2 kh kw ph pw (X ⟨b, hb⟩))ᵀ i j
  have fin : ∀ t : Tensor ℝ, (t.shape = B :: [c2 * c1 * kh * kw, rows] ∧ ∀ i, i < B → ∃ d, P i d ∧ ∀ k, k < size [c2 * c1 * kh * kw, rows] →
      t.data (i * size [c2 * c1 * kh * kw, rows] + k) = d k) →
      IsMat t B (c2 * c1 * kh * kw) rows fun b => (Z b * convJK c1 h1 w1 c2 h2 w2 kh kw ph pw (X b))ᵀ := by
    rintro t ⟨h1', h2'⟩
    refine ⟨h1', fun b i j => ?_⟩
    obtain ⟨d, hd, h3⟩ := h2' b b.2
    have := h3 ((i : Nat) * rows + j) (by simpa [size_cons] using lt_pair i.2 j.2)
    rw [get3 h1']
    refine Eq.trans ?_ ((this.trans (hd b.2 i j)))
    congr 1; simp only [size_cons, size_nil]; ring
  rw [mjpKernel, hf.kernel]
  split_ifs with hu
  · refine (sample_rev hx).bind fun xf hxf => ?_
    refine (vmap2_spec' (s := [c2 * c1 * kh * kw, rows]) (P := P) hB hxf.1 hm.1 fun i hi => ?_).mono fin
    refine vmap_head hxf hm.1 hi fun xi mi hxi hmi => ?_
    obtain ⟨m2, e3, h3⟩ := selectUnsq_5 hm hi
    rw [hmi] at e3
    simp only [Res.bind_ok] at e3
    rw [e3]
    refine (movedim_5_01 h3).bind fun m3 h4 => ?_
    exact (mjpSingle_mat hf (F := fun o q => F i o q) (D := fun c u v => x.data (((i * c1 + c) * h1 + u) * w1 + v)) h4 hxi
      (fun o q r s => eF ⟨i, hi⟩ o q r s) (fun c u v => hx.img ⟨i, hi⟩ c u v)).mono fun r hr => ⟨hr.1, fun _ a b => hr.data a b⟩
  · refine (movedim_5_01 hm).bind fun v1 hv1 => ?_
    refine (fillRows_spec' (s := [c2 * c1 * kh * kw, rows]) (P := P) rfl fun i hi => ?_).mono fin
    refine (slice_4_0 hx.n4 hi).bind fun x1 hx1 => (flip_4_hw hx1).bind fun x2 hx2 => (movedim_4_01 hx2).bind fun x3 hx3 => ?_
    refine (slice_5_1 hv1 hi).bind fun v2 hv2 => ?_
    exact (mjpSingle_mat hf (F := fun o q => F i o q) (D := fun c u v => x.data (((i * c1 + c) * h1 + u) * w1 + v)) hv2 hx3
      (fun o q r s => eF ⟨i, hi⟩ o q r s) (fun c u v => hx.img ⟨i, hi⟩ c u v)).mono fun r hr => ⟨hr.1, fun _ a b => hr.data a b⟩

theorem sum_rev {a b : Nat} (F : Nat → Nat → ℝ) :
    ∑ x : Fin a, ∑ y : Fin b, F (a - 1 - x) (b - 1 - y) = ∑ r ∈ Finset.range a, ∑ s ∈ Finset.range b, F r s := by
  rw [← Finset.sum_range_reflect, Finset.sum_range]
  refine Finset.sum_congr rfl fun r _ => ?_
  rw [← Finset.sum_range_reflect, Finset.sum_range]

/-- second half of a pass of the weight sandwich -/
theorem weightPassTail_spec (hf : Fits cfg h1 w1 h2 w2 kh kw ph pw) {bId : Option Nat} {bias : Option (Tensor ℝ)} (hb : bias.isSome = bId.isSome)
    {rows : Nat} {m inp : Tensor ℝ} {F : Nat → Nat → Nat → Nat → ℝ}
    {Z : Matrix (Fin rows) (Fin (c2 * h2 * w2)) ℝ} {y : Fin (c1 * h1 * w1) → ℝ} {D : Nat → Nat → Nat → ℝ} (hc2 : 0 < c2)
    (hm : N5 m 1 c2 h2 w2 rows fun _ a y z q => F a q y z)
    (hi : N4 inp c1 1 h1 w1 fun c _ u v => D c (h1 - 1 - u) (w1 - 1 - v))
    (eF : ∀ (o : Fin c2) (q : Fin rows) (r : Fin h2) (s : Fin w2), F o q r s = Z q (pix o r s))
    (eD : ∀ (c : Fin c1) (u : Fin h1) (v : Fin w1), D c u v = y (pix c u v)) :
    Ret (weightPassTail cfg bias c1 c2 h2 w2 rows m inp) fun r =>
      M2 r (c2 * c1 * kh * kw + biasLen bId c2) rows (Z * hcat (convJK c1 h1 w1 c2 h2 w2 kh kw ph pw y) (convJB bId c2 h2 w2))ᵀ := by
  refine (flip_5_23 hm).bind fun m1 hm1 => (movedim_5_01 hm1).bind fun m2 hm2 => ?_
  refine (mjpSingle_mat hf (F := F) hm2 hi eF eD).bind fun r hr => ?_
  cases bId with
  | none =>
    cases bias with
    | some _ => cases hb
    | none =>
      have e := hcat_empty (convJK c1 h1 w1 c2 h2 w2 kh kw ph pw y) (convJB none c2 h2 w2 : Matrix _ (Fin 0) ℝ)
      rw [← e] at hr
      exact Ret.ok hr
  | some b =>
    cases bias with
    | none => cases hb
    | some bt =>
      have p2 := hf.ph2; have p3 := hf.pw2
      refine (reshapeInfer_data (q := rows) (by simp [size_cons]; exact ⟨hc2, p2, p3⟩) (by rw [hm2.numel]; simp [size_cons]; ring)).bind fun m3 hm3 => ?_
      have n3 : N4 m3 c2 h2 w2 rows fun o y z q => F o q (h2 - 1 - y) (w2 - 1 - z) := N4.of_data hm3.1 fun o y z q ho hy hz hq => by
        rw [hm3.2, ← hm2.data ho Nat.zero_lt_one hy hz hq]; congr 1; ring
      have hbT : Ret (einsum% "chwv->cv" [m3]) fun e => M2 e c2 rows (Z * convJB (some b) c2 h2 w2)ᵀ := by
        ein [('c', c2), ('h', h2), ('w', w2), ('v', rows)] [n3.1, n3.2]
        rename_i i j
        rw [sum_rev (fun y z => F i j y z)]
        exact sum_convJB (U := Z j) b i fun r s => eF i j r s
      refine hbT.bind fun e he => (cat2_m2 (q := biasLen (some b) c2) hr he).mono fun t ht => ?_
      rw [mul_hcat, transpose_hcat]
      exact ht

theorem weightSandwich_spec (hf : Fits cfg h1 w1 h2 w2 kh kw ph pw) {bId : Option Nat} {bias : Option (Tensor ℝ)} (hb : bias.isSome = bId.isSome)
    (hP : cfg.nParams = c2 * c1 * kh * kw + biasLen bId c2) {m inp : Tensor ℝ}
    {Z : Matrix (Fin (c2 * h2 * w2)) (Fin (c2 * h2 * w2)) ℝ} {y : Fin (c1 * h1 * w1) → ℝ} {D : Nat → Nat → Nat → ℝ} (hc2 : 0 < c2)
    {E : Nat → Nat → ℝ} (hm : N3 m 1 (c2 * h2 * w2) (c2 * h2 * w2) fun _ i j => E i j)
    (hi : N4 inp c1 1 h1 w1 fun c _ u v => D c (h1 - 1 - u) (w1 - 1 - v))
    (eE : ∀ i j : Fin (c2 * h2 * w2), E i j = Z i j)
    (eD : ∀ (c : Fin c1) (u : Fin h1) (v : Fin w1), D c u v = y (pix c u v)) :
    Ret (weightSandwich cfg bias c1 c2 h2 w2 m inp) fun r =>
      M2 r (c2 * c1 * kh * kw + biasLen bId c2) (c2 * c1 * kh * kw + biasLen bId c2)
        ((hcat (convJK c1 h1 w1 c2 h2 w2 kh kw ph pw y) (convJB bId c2 h2 w2))ᵀ * Z *
          hcat (convJK c1 h1 w1 c2 h2 w2 kh kw ph pw y) (convJB bId c2 h2 w2)) := by
  have hpass : Ret (weightPass cfg bias c1 c2 h2 w2 (c2 * h2 * w2) m inp) fun r =>
      M2 r (c2 * c1 * kh * kw + biasLen bId c2) (c2 * h2 * w2)
        (Z * hcat (convJK c1 h1 w1 c2 h2 w2 kh kw ph pw y) (convJB bId c2 h2 w2))ᵀ := by
    refine (movedim_3_swap hm).bind fun m1 hm1 => ?_
    refine (reshape_data (by rw [hm1.numel]; simp [size_cons]; ring)).bind fun m2 hm2 => ?_
    have n2 : N5 m2 1 c2 h2 w2 (c2 * h2 * w2) fun _ a y z q => E q ((a * h2 + y) * w2 + z) := N5.of_data hm2.1 fun i a y z q hi ha hy hz hq => by
      obtain rfl : i = 0 := by omega
      rw [hm2.2, ← hm1.data Nat.zero_lt_one (lt_pair (lt_pair ha hy) hz) hq]; congr 1; ring
    exact weightPassTail_spec hf hb (F := fun a q y z => E q ((a * h2 + y) * w2 + z)) hc2 n2 hi (fun o q r s => by rw [← pix_val, eE]) eD
  simp only [weightSandwich]
  refine hpass.bind fun r hr => ?_
  have hr2 : N2 r (c2 * c1 * kh * kw + biasLen bId c2) (c2 * h2 * w2) fun i j => r.data (i * (c2 * h2 * w2) + j) :=
    N2.of_data hr.1 fun _ _ _ _ => rfl
  refine (movedim_2_swap hr2).bind fun r1 hr1 => ?_
  rw [hP]
  refine (reshape_data (by rw [hr1.numel]; simp [size_cons]; ring)).bind fun r2 hr2 => ?_
  have n2 : N5 r2 1 c2 h2 w2 (c2 * c1 * kh * kw + biasLen bId c2) fun _ a y z q => r.data (q * (c2 * h2 * w2) + ((a * h2 + y) * w2 + z)) :=
    N5.of_data hr2.1 fun i a y z q hi ha hy hz hq => by
      obtain rfl : i = 0 := by omega
      rw [hr2.2, ← hr1.data (lt_pair (lt_pair ha hy) hz) hq]; congr 1; ring
  refine (weightPassTail_spec hf hb (F := fun a q y z => r.data (q * (c2 * h2 * w2) + ((a * h2 + y) * w2 + z)))
    (Z := (Z * hcat (convJK c1 h1 w1 c2 h2 w2 kh kw ph pw y) (convJB bId c2 h2 w2))ᵀ) hc2 n2 hi (fun o q r s => by rw [← hr.data, pix_val]) eD).mono
    fun t ht => ?_
  rw [transpose_mul, transpose_transpose, ← Matrix.mul_assoc] at ht
  exact ht

theorem vmap_head' {m : Tensor ℝ} {s2 : List Nat} {a b c d i : Nat} {F : Nat → Nat → Nat → Nat → ℝ} {xf : Tensor ℝ}
    {f : Tensor ℝ → Tensor ℝ → Res (Tensor ℝ)} {P : Tensor ℝ → Prop} (hx : N4 xf a b c d F) (hm : m.shape = a :: s2) (hi : i < a)
    (h : ∀ xi mi, N4 xi b 1 c d (fun j _ k l => F i j (c - 1 - k) (d - 1 - l)) → m.select0 i = .ok mi → Ret (f xi mi) P) :
    Ret (xf.select0 i >>= fun a => m.select0 i >>= fun b => do
      let a ← a.unsqueeze 0
      let a ← a.flip [-2, -1]
      let a ← a.movedim [0] [1]
      f a b) P := by
  obtain ⟨x1, e1, _⟩ := select0_ret hx.1 hi
  obtain ⟨m1, e2, _⟩ := select0_ret hm hi
  obtain ⟨x2, e3, h3⟩ := selectUnsq_4 hx hi
  rw [e1] at e3 ⊢
  rw [e2]
  simp only [Res.bind_ok] at e3 ⊢
  rw [e3]
  refine (flip_4_hw h3).bind fun x3 h4 => (movedim_4_01 h4).bind fun x4 h5 => h x4 m1 h5 e2

theorem rows_mat {p n : Nat} {M : Fin B → Matrix (Fin p) (Fin n) ℝ} (t : Tensor ℝ)
    (h : t.shape = B :: [p, n] ∧ ∀ i, i < B → ∃ d : Nat → ℝ, (∀ hb : i < B, ∀ (a : Fin p) (c : Fin n), d (a * n + c) = M ⟨i, hb⟩ a c) ∧
      ∀ k, k < size [p, n] → t.data (i * size [p, n] + k) = d k) : IsMat t B p n M := by
  obtain ⟨h1', h2'⟩ := h
  refine ⟨h1', fun b i j => ?_⟩
  obtain ⟨d, hd, h3⟩ := h2' b b.2
  have := h3 ((i : Nat) * n + j) (by simpa [size_cons] using lt_pair i.2 j.2)
  rw [get3 h1']
  refine Eq.trans ?_ ((this.trans (hd b.2 i j)))
  congr 1; simp only [size_cons, size_nil]; ring

theorem jTmjpWeightFull_spec (hf : Fits cfg h1 w1 h2 w2 kh kw ph pw) {bId : Option Nat} {bias : Option (Tensor ℝ)} (hb : bias.isSome = bId.isSome)
    (hP : cfg.nParams = c2 * c1 * kh * kw + biasLen bId c2) (hB : 0 < B) (hc2 : 0 < c2) (hx : IsBatch x B [c1, h1, w1] (c1 * h1 * w1) X)
    {v m : Tensor ℝ} {Y : Fin B → Fin (c2 * h2 * w2) → ℝ} (hv : IsBatch v B [c2, h2, w2] (c2 * h2 * w2) Y)
    {Z : Fin B → Matrix (Fin (c2 * h2 * w2)) (Fin (c2 * h2 * w2)) ℝ} (hm : IsMat m B (c2 * h2 * w2) (c2 * h2 * w2) Z) :
    Ret (jTmjpWeightFull cfg bias x v m) fun t =>
      IsMat t B (c2 * c1 * kh * kw + biasLen bId c2) (c2 * c1 * kh * kw + biasLen bId c2) fun b =>
        (hcat (convJK c1 h1 w1 c2 h2 w2 kh kw ph pw (X b)) (convJB bId c2 h2 w2))ᵀ * Z b *
          hcat (convJK c1 h1 w1 c2 h2 w2 kh kw ph pw (X b)) (convJB bId c2 h2 w2) := by
  simp only [jTmjpWeightFull, hx.dims4, hv.dims4, Res.bind_ok]
  refine (Ret.assertR hm.1).bind fun _ _ => ?_
  rw [hP]
  split_ifs with hu
  · refine (vmap2_spec' hB hx.1 hm.1 fun i hi => ?_).mono rows_mat
    refine vmap_head' hx.n4 hm.1 hi fun xi mi hxi hmi => ?_
    obtain ⟨m2, e3, h3⟩ := selectUnsq_3 hm.n3 hi
    rw [hmi] at e3
    simp only [Res.bind_ok] at e3
    rw [e3]
    exact (weightSandwich_spec hf hb hP (Z := Z ⟨i, hi⟩) (y := X ⟨i, hi⟩) (D := fun c u v => x.data (((i * c1 + c) * h1 + u) * w1 + v)) hc2 h3 hxi
      (fun a b => hm.data' ⟨i, hi⟩ a b) (fun c u v => hx.img ⟨i, hi⟩ c u v)).mono fun r hr => ⟨hr.1, fun _ a b => hr.data a b⟩
  · refine (fillRows_spec' rfl fun i hi => ?_).mono rows_mat
    refine (slice_4_0 hx.n4 hi).bind fun x1 hx1 => (flip_4_hw hx1).bind fun x2 hx2 => (movedim_4_01 hx2).bind fun x3 hx3 => ?_
    refine (slice_3_0 hm.n3 hi).bind fun v2 hv2 => ?_
    exact (weightSandwich_spec hf hb hP (Z := Z ⟨i, hi⟩) (y := X ⟨i, hi⟩) (D := fun c u v => x.data (((i * c1 + c) * h1 + u) * w1 + v)) hc2 hv2 hx3
      (fun a b => hm.data' ⟨i, hi⟩ a b) (fun c u v => hx.img ⟨i, hi⟩ c u v)).mono fun r hr => ⟨hr.1, fun _ a b => hr.data a b⟩

/-- diagonal case wrt the weight, kernel part -/
theorem diagW_core (hf : Fits cfg h1 w1 h2 w2 kh kw ph pw) (hB : 0 < B) {xq m : Tensor ℝ}
    {Q : Fin B → Fin (c1 * h1 * w1) → ℝ} {U : Fin B → Fin (c2 * h2 * w2) → ℝ} {F G : Nat → Nat → Nat → Nat → ℝ}
    (hx : N4 xq B c1 h1 w1 fun b c u v => G b (c1 - 1 - c) (h1 - 1 - u) (w1 - 1 - v))
    (hm : N4 m B c2 h2 w2 fun b o y z => F b (c2 - 1 - o) (h2 - 1 - y) (w2 - 1 - z))
    (eG : ∀ (b : Fin B) (c : Fin c1) (u : Fin h1) (v : Fin w1), G b c u v = Q b (pix c u v))
    (eF : ∀ (b : Fin B) (o : Fin c2) (y : Fin h2) (z : Fin w2), F b o y z = U b (pix o y z)) :
    Ret (weightDiagKernel cfg B c1 c2 h2 w2 xq m)
      fun t => IsVec t B (c2 * c1 * kh * kw) fun b => U b ᵥ* convJK c1 h1 w1 c2 h2 w2 kh kw ph pw (Q b) := by
  let P : Nat → (Nat → ℝ) → Prop := fun b d => ∀ o c i j, o < c2 → c < c1 → i < kh → j < kw → d (((o * c1 + c) * kh + i) * kw + j) =
    wp h1 w1 h2 w2 ph pw (G b c) (F b o) i j
  have fin : ∀ t : Tensor ℝ, (t.shape = B :: [c2 * c1 * kh * kw] ∧ ∀ i, i < B → ∃ d, P i d ∧ ∀ k, k < size [c2 * c1 * kh * kw] →
      t.data (i * size [c2 * c1 * kh * kw] + k) = d k) →
      IsVec t B (c2 * c1 * kh * kw) fun b => U b ᵥ* convJK c1 h1 w1 c2 h2 w2 kh kw ph pw (Q b) := by
    rintro t ⟨h1', h2'⟩
    refine isVec_kix h1' fun b o c i j => ?_
    obtain ⟨d, hd, h3⟩ := h2' b b.2
    have := h3 _ (by simpa using kix_lt o c i j)
    simp only [size_cons, size_nil, mul_one] at this
    rw [this, hd o c i j o.2 c.2 i.2 j.2]
    exact sum_convJK o c i j (fun r s => eF b o r s) fun u v => eG b c u v
  rw [weightDiagKernel, hf.kernel]
  split_ifs with hu
  · refine (vmap2_spec' (s := [c2 * c1 * kh * kw]) (P := P) hB hx.1 hm.1 fun i hi => ?_).mono fin
    refine vmap_head hx hm.1 hi fun xi mi hxi hmi => ?_
    obtain ⟨m2, e3, h3⟩ := selectUnsq_4 hm hi
    rw [hmi] at e3
    simp only [Res.bind_ok] at e3
    rw [e3]
    refine (movedim_4_01 h3).bind fun m3 h4 => ?_
    exact weightDiagSingle_spec hf (V := F i) (X := G i) h4 hxi
  · refine (movedim_4_01 hm).bind fun v1 hv1 => (movedim_4_01 hx).bind fun x1 hx1 => ?_
    refine (fillRows_spec' (s := [c2 * c1 * kh * kw]) (P := P) rfl fun i hi => ?_).mono fin
    refine (slice_4_1 hx1 hi).bind fun x2 hx2 => (slice_4_1 hv1 hi).bind fun v2 hv2 => ?_
    exact weightDiagSingle_spec hf (V := F i) (X := G i) hv2 hx2

theorem sum2_spec {c n : Nat} {t : Tensor ℝ} {F : Nat → Nat → Nat → ℝ} (ht : N3 t B c n F) :
    Ret (sum2 t) fun r => N2 r B c fun b o => ∑ i ∈ Finset.range n, F b o i := by
  simp only [sum2, ht.1]
  refine Ret.ok (N2.of_data rfl fun b o hb ho => ?_)
  simp only [sumRange_range]
  exact Finset.sum_congr rfl fun i hi => ht.data hb ho (Finset.mem_range.1 hi)

theorem sum_pair {a b : Nat} (F : Nat → ℝ) : ∑ i ∈ Finset.range (a * b), F i = ∑ r ∈ Finset.range a, ∑ s ∈ Finset.range b, F (r * b + s) := by
  induction a with
  | zero => simp
  | succ n ih => rw [Nat.succ_mul, Finset.sum_range_add, ih, Finset.sum_range_succ]

theorem sq_hcat {k p q : Nat} (A : Matrix (Fin k) (Fin p) ℝ) (C : Matrix (Fin k) (Fin q) ℝ) : sq (hcat A C) = hcat (sq A) (sq C) := by
  funext i j
  refine Fin.addCases (fun j => ?_) (fun j => ?_) j <;> simp [sq]

theorem jTmjpWeightDiag_spec (hf : Fits cfg h1 w1 h2 w2 kh kw ph pw) {bId : Option Nat} {bias : Option (Tensor ℝ)} (hb : bias.isSome = bId.isSome)
    (hB : 0 < B) (hx : IsBatch x B [c1, h1, w1] (c1 * h1 * w1) X)
    {v m : Tensor ℝ} {Y : Fin B → Fin (c2 * h2 * w2) → ℝ} (hv : IsBatch v B [c2, h2, w2] (c2 * h2 * w2) Y)
    {U : Fin B → Fin (c2 * h2 * w2) → ℝ} (hnum : m.numel = B * c2 * h2 * w2)
    (hm : ∀ (b : Fin B) (k : Fin (c2 * h2 * w2)), m.data ((b : Nat) * (c2 * h2 * w2) + k) = U b k) :
    Ret (jTmjpWeightDiag cfg bias x v m) fun t =>
      IsVec t B (c2 * c1 * kh * kw + biasLen bId c2) fun b =>
        U b ᵥ* sq (hcat (convJK c1 h1 w1 c2 h2 w2 kh kw ph pw (X b)) (convJB bId c2 h2 w2)) := by
  simp only [jTmjpWeightDiag, hx.dims4, hv.dims4, Res.bind_ok]
  refine (reshape_data (by rw [hnum]; simp [size_cons]; ring)).bind fun m1 hm1 => ?_
  have n1 : N4 m1 B c2 h2 w2 fun b o y z => m.data (b * (c2 * h2 * w2) + ((o * h2 + y) * w2 + z)) := N4.of_data hm1.1 fun i a y z _ _ _ _ => by
    rw [hm1.2]; congr 1; ring
  refine (flip_4_chw n1).bind fun m2 hm2 => (flip_4_chw hx.n4).bind fun xf hxf => ?_
  have hq : N4 (xf.map fun a => a * a) B c1 h1 w1 fun b c u v =>
      (fun b c u v => x.data (((b * c1 + c) * h1 + u) * w1 + v) * x.data (((b * c1 + c) * h1 + u) * w1 + v)) b (c1 - 1 - c) (h1 - 1 - u) (w1 - 1 - v) :=
    N4.of_data hxf.1 fun i a y z hi ha hy hz => by
      simp only [Tensor.map, hxf.data hi ha hy hz]
  refine (diagW_core hf hB (Q := fun b => X b * X b) (U := U)
    (G := fun b c u v => x.data (((b * c1 + c) * h1 + u) * w1 + v) * x.data (((b * c1 + c) * h1 + u) * w1 + v)) (F := fun b o y z => m.data (b * (c2 * h2 * w2) + ((o * h2 + y) * w2 + z))) hq hm2
    (fun b c u v => (congrArg (fun a => a * a) (hx.img b c u v))) (fun b o y z => by rw [← pix_val, hm])).bind fun r hr => ?_
  have eJ : ∀ b, U b ᵥ* sq (hcat (convJK c1 h1 w1 c2 h2 w2 kh kw ph pw (X b)) (convJB bId c2 h2 w2))
      = Fin.append (U b ᵥ* convJK c1 h1 w1 c2 h2 w2 kh kw ph pw (X b * X b)) (U b ᵥ* convJB bId c2 h2 w2) := fun b => by
    rw [sq_hcat, vecMul_hcat, sq_convJK, sq_convJB]; rfl
  cases bId with
  | none =>
    cases bias with
    | some _ => cases hb
    | none =>
      refine Ret.ok ⟨hr.1, fun b k => ?_⟩
      refine Eq.trans ?_ (congrFun (eJ b) k).symm
      exact (hr.2 b k).trans (Fin.append_left _ _ k).symm
  | some bi =>
    cases bias with
    | none => cases hb
    | some bt =>
      refine (reshape_data (by rw [hnum]; simp [size_cons]; ring)).bind fun m3 hm3 => ?_
      have n3 : N3 m3 B c2 (h2 * w2) fun b o i => m.data ((b * c2 + o) * (h2 * w2) + i) := N3.of_data hm3.1 fun b o i _ _ _ => by rw [hm3.2]
      refine (sum2_spec n3).bind fun t ht => ?_
      have hv2 : IsVec t B (biasLen (some bi) c2) fun b => U b ᵥ* convJB (some bi) c2 h2 w2 := ⟨ht.1, fun b o => by
        rw [ht.2 b o b.2 o.2]
        refine Eq.trans (sum_pair _) (sum_convJB (c2 := c2) (U := U b)
          (F := fun r s => m.data (((b : Nat) * c2 + o) * (h2 * w2) + (r * w2 + s))) bi o fun r s => ?_)
        refine Eq.trans ?_ (hm b _)
        refine congrArg m.data (Eq.trans ?_ (congrArg (fun k => (b : Nat) * (c2 * h2 * w2) + k) (pix_val (c := c2) o r s)).symm)
        show _ = (b : Nat) * (c2 * h2 * w2) + (((o : Nat) * h2 + r) * w2 + s)
        ring⟩
      refine (cat2_vec hr hv2).mono fun t ht => ht.congr fun b k => ?_
      rw [eJ]

/-! ### products with the input Jacobian -/

section
variable {bId : Option Nat} {W : Tensor ℝ} {w : Fin (c2 * c1 * kh * kw + biasLen bId c2) → ℝ} {K : Nat → Nat → Nat → Nat → ℝ}

theorem convT (hf : Fits cfg h1 w1 h2 w2 kh kw ph pw) (hW : N4 W c2 c1 kh kw K)
    (eK : ∀ (o : Fin c2) (c : Fin c1) (i : Fin kh) (j : Fin kw), K o c i j = w (Fin.castAdd _ (kix o c i j)))
    {n : Nat} {m : Tensor ℝ} (hm : m.shape = [n, c2, h2, w2]) :
    Ret (Torch.convTranspose2d m W cfg.fwdArgs) fun r => r.shape = [n, c1, h1, w1] ∧
      ∀ q, q < n → ∀ (c : Fin c1) (y : Fin h1) (z : Fin w1), r.data (((q * c1 + c) * h1 + y) * w1 + z)
        = ((fun k : Fin (c2 * h2 * w2) => m.data (q * (c2 * h2 * w2) + k)) ᵥ* convJ bId c1 h1 w1 c2 h2 w2 kh kw ph pw w) (pix c y z) := by
  obtain ⟨k1, k2, k3, k4, k5, k6, k7, k8, k9, k10, k11, k12, k13, k14, k15⟩ := hf
  have ea : cfg.fwdArgs = { stride := (1, 1), padding := ((ph : Int), (pw : Int)), dilation := (1, 1), groups := 1 } := by
    simp only [Cfg.fwdArgs, k2, k3, k4, k5]
  rw [ea]
  have n4 : N4 m n c2 h2 w2 fun q o r s => m.data (((q * c2 + o) * h2 + r) * w2 + s) := N4.of_data hm fun _ _ _ _ _ _ _ _ => rfl
  have key := convTranspose2d_spec (a := { stride := (1, 1), padding := ((ph : Int), (pw : Int)), dilation := (1, 1), groups := 1 })
    (oh := h1) (ow := w1) n4 hW rfl rfl rfl (by simp) (by simp) k10 k11
    (by simp only [Torch.convTLen]; omega) (by simp only [Torch.convTLen]; omega)
  refine key.mono fun r hr => ⟨hr.1, fun q hq c y z => ?_⟩
  rw [hr.data hq c.2 y.2 z.2]
  refine sum_convJ c y z (fun o r s => ?_) fun o i j => eK o c i j
  rw [pix_val]; congr 1; ring

theorem vjpI_spec (hf : Fits cfg h1 w1 h2 w2 kh kw ph pw) (hW : N4 W c2 c1 kh kw K)
    (eK : ∀ (o : Fin c2) (c : Fin c1) (i : Fin kh) (j : Fin kw), K o c i j = w (Fin.castAdd _ (kix o c i j)))
    {u : Tensor ℝ} {U : Fin B → Fin (c2 * h2 * w2) → ℝ} (hu : IsVec u B (c2 * h2 * w2) U) :
    Ret (do
      let v ← u.reshape [B, c2, h2, w2]
      let r ← Torch.convTranspose2d v W cfg.fwdArgs
      r.reshape [B, c1 * h1 * w1]) fun t =>
      IsVec t B (c1 * h1 * w1) fun b => U b ᵥ* convJ bId c1 h1 w1 c2 h2 w2 kh kw ph pw w := by
  refine (reshape_data (by rw [Tensor.numel, hu.1]; simp only [size_cons, size_nil]; ring)).bind fun v hv => ?_
  refine (convT hf hW eK hv.1).bind fun r hr => ?_
  refine (reshape_data (by rw [Tensor.numel, hr.1]; simp only [size_cons, size_nil]; ring)).mono fun t ht => isVec_img ht.1 fun b c y z => ?_
  rw [ht.2, hr.2 b b.2]
  congr 2
  funext k
  rw [hv.2, hu.data]

theorem mjpI_spec (hf : Fits cfg h1 w1 h2 w2 kh kw ph pw) (hW : N4 W c2 c1 kh kw K) (hc2 : 0 < c2)
    (eK : ∀ (o : Fin c2) (c : Fin c1) (i : Fin kh) (j : Fin kw), K o c i j = w (Fin.castAdd _ (kix o c i j)))
    {rows : Nat} {m : Tensor ℝ} {Z : Fin B → Matrix (Fin rows) (Fin (c2 * h2 * w2)) ℝ} (hm : IsMat m B rows (c2 * h2 * w2) Z) :
    Ret (do
      let m ← m.movedim [-1] [-2]
      let m ← m.reshape [B, c2, h2, w2, rows]
      let m ← m.movedim [1, 2, 3] [-3, -2, -1]
      let m ← m.reshapeInfer [] [c2, h2, w2]
      let r ← Torch.convTranspose2d m W cfg.fwdArgs
      let r ← r.reshape [B, rows, c1, h1, w1]
      let r ← r.movedim [-3, -2, -1] [1, 2, 3]
      let r ← r.reshape [B, c1 * h1 * w1, rows]
      r.movedim [1] [2]) fun t =>
      IsMat t B rows (c1 * h1 * w1) fun b => Z b * convJ bId c1 h1 w1 c2 h2 w2 kh kw ph pw w := by
  have p2 := hf.ph2; have p3 := hf.pw2
  refine (movedim_3_swap hm.n3).bind fun m1 hm1 => ?_
  refine (reshape_data (by rw [hm1.numel]; simp [size_cons]; ring)).bind fun m2 hm2 => ?_
  have n2 : N5 m2 B c2 h2 w2 rows fun b o r s q => m.data ((b * rows + q) * (c2 * h2 * w2) + ((o * h2 + r) * w2 + s)) :=
    N5.of_data hm2.1 fun b o r s q hb ho hr hs hq => by
      rw [hm2.2, ← hm1.data hb (lt_pair (lt_pair ho hr) hs) hq]; congr 1; ring
  refine (movedim_5_last n2).bind fun m3 hm3 => ?_
  refine (reshapeInfer_data (q := B * rows) (by simp [size_cons]; exact ⟨hc2, p2, p3⟩) (by rw [hm3.numel]; simp [size_cons]; ring)).bind fun m4 hm4 => ?_
  refine (convT hf hW eK (n := B * rows) (by rw [hm4.1]; rfl)).bind fun r hr => ?_
  refine (reshape_data (by rw [Tensor.numel, hr.1]; simp [size_cons]; ring)).bind fun r1 hr1 => ?_
  have n5 : N5 r1 B rows c1 h1 w1 fun b q c y z => r.data ((((b * rows + q) * c1 + c) * h1 + y) * w1 + z) :=
    N5.of_data hr1.1 fun _ _ _ _ _ _ _ _ _ _ => by rw [hr1.2]
  refine (movedim_5_back n5).bind fun r2 hr2 => ?_
  refine (reshape_data (by rw [hr2.numel]; simp [size_cons]; ring)).bind fun r3 hr3 => ?_
  have n6 : N3 r3 B (c1 * h1 * w1) rows fun b i q => r3.data ((b * (c1 * h1 * w1) + i) * rows + q) := N3.of_data hr3.1 fun _ _ _ _ _ _ => rfl
  refine (movedim_3_12 n6).mono fun t ht => ht.mat fun b q i => ?_
  obtain ⟨c, y, z, rfl⟩ := pix_surj i
  have e1 := hr2.data b.2 c.2 y.2 z.2 q.2
  rw [hr3.2, pix_val, show ((b : Nat) * (c1 * h1 * w1) + ((c * h1 + y) * w1 + z)) * rows + q = ((((b : Nat) * c1 + c) * h1 + y) * w1 + z) * rows + q by ring, e1,
    hr.2 _ (lt_pair b.2 q.2) c y z, mul_apply_eq_vecMul]
  congr 2
  funext k
  obtain ⟨o, r', s, rfl⟩ := pix_surj k
  have e2 := hm3.data b.2 q.2 o.2 r'.2 s.2
  rw [hm4.2, ← hm.data', pix_val, ← e2]
  congr 1; ring

theorem diagI_spec (hf : Fits cfg h1 w1 h2 w2 kh kw ph pw) (hW : N4 W c2 c1 kh kw K) (hc2 : 0 < c2)
    (eK : ∀ (o : Fin c2) (c : Fin c1) (i : Fin kh) (j : Fin kw), K o c i j = w (Fin.castAdd _ (kix o c i j)))
    (hx : IsBatch x B [c1, h1, w1] (c1 * h1 * w1) X)
    {v m : Tensor ℝ} {Y : Fin B → Fin (c2 * h2 * w2) → ℝ} (hv : IsBatch v B [c2, h2, w2] (c2 * h2 * w2) Y)
    {U : Fin B → Fin (c2 * h2 * w2) → ℝ} (hnum : m.numel = B * c2 * h2 * w2)
    (hm : ∀ (b : Fin B) (k : Fin (c2 * h2 * w2)), m.data ((b : Nat) * (c2 * h2 * w2) + k) = U b k) :
    Ret (jTmjpInputDiag cfg W x v m) fun t =>
      IsVec t B (c1 * h1 * w1) fun b => U b ᵥ* sq (convJ bId c1 h1 w1 c2 h2 w2 kh kw ph pw w) := by
  have p2 := hf.ph2; have p3 := hf.pw2
  simp only [jTmjpInputDiag, hx.dims4, hv.dims4, Res.bind_ok]
  refine (reshape_data (by rw [hnum]; simp only [size_cons, size_nil]; ring)).bind fun m1 hm1 => ?_
  have n1 : N4 m1 B c2 h2 w2 fun b o r s => m.data (((b * c2 + o) * h2 + r) * w2 + s) := N4.of_data hm1.1 fun _ _ _ _ _ _ _ _ => by rw [hm1.2]
  refine (movedim_4_last n1).bind fun m2 hm2 => ?_
  refine (reshapeInfer_data (q := B) (by simp [size_cons]; exact ⟨hc2, p2, p3⟩) (by rw [hm2.numel]; simp only [size_cons, size_nil]; ring)).bind fun m3 hm3 => ?_
  have hW2 : N4 (W.map fun a => a * a) c2 c1 kh kw fun o c i j => K o c i j * K o c i j :=
    N4.of_data hW.1 fun o c i j ho hc hi hj => by simp only [Tensor.map, hW.data ho hc hi hj]
  refine (convT (bId := bId) hf hW2 (w := fun k => w k * w k) (fun o c i j => by rw [eK]) (n := B) (by rw [hm3.1]; rfl)).bind fun r hr => ?_
  refine (reshape_data (by rw [Tensor.numel, hr.1])).bind fun r1 hr1 => ?_
  have n5 : N4 r1 B c1 h1 w1 fun b c y z => r.data (((b * c1 + c) * h1 + y) * w1 + z) :=
    N4.of_data hr1.1 fun _ _ _ _ _ _ _ _ => by rw [hr1.2]
  refine (movedim_4_back n5).bind fun r2 hr2 => ?_
  refine (reshape_data (by rw [hr2.numel]; simp only [size_cons, size_nil]; ring)).mono fun t ht => isVec_img ht.1 fun b c y z => ?_
  rw [ht.2, hr2.data b.2 c.2 y.2 z.2, hr.2 b b.2, sq_convJ]
  congr 2
  funext k
  obtain ⟨o, r', s, rfl⟩ := pix_surj k
  have e2 := hm2.data b.2 o.2 r'.2 s.2
  rw [hm3.2, ← hm, pix_val]
  refine Eq.trans ?_ (e2.trans ?_) <;> (congr 1; ring)

theorem forward_spec (hf : Fits cfg h1 w1 h2 w2 kh kw ph pw) (hW : N4 W c2 c1 kh kw K)
    (eK : ∀ (o : Fin c2) (c : Fin c1) (i : Fin kh) (j : Fin kw), K o c i j = w (Fin.castAdd _ (kix o c i j)))
    {bias : Option (Tensor ℝ)} (hbs : ∀ t ∈ bias, t.shape = [c2]) (hb : bias.isSome = bId.isSome)
    (eb : ∀ t ∈ bias, ∀ (o : Nat) (h : o < biasLen bId c2), t.data o = w (Fin.natAdd _ ⟨o, h⟩))
    (hx : IsBatch x B [c1, h1, w1] (c1 * h1 * w1) X) :
    Ret (forward cfg W bias x) fun v => IsBatch v B [c2, h2, w2] (c2 * h2 * w2) fun b => convF bId c1 h1 w1 c2 h2 w2 kh kw ph pw w (X b) := by
  obtain ⟨k1, k2, k3, k4, k5, k6, k7, k8, k9, k10, k11, k12, k13, k14, k15⟩ := hf
  have ea : cfg.fwdArgs = { stride := (1, 1), padding := ((ph : Int), (pw : Int)), dilation := (1, 1), groups := 1 } := by
    simp only [Cfg.fwdArgs, k2, k3, k4, k5]
  rw [forward, ea]
  have key := conv2d_spec (a := { stride := (1, 1), padding := ((ph : Int), (pw : Int)), dilation := (1, 1), groups := 1 })
    (b := bias) (oh := h2) (ow := w2) hx.n4 hW hbs rfl rfl Nat.one_pos Nat.one_pos (by simp) (by simp) k12 k13
    (convLen_one (by push_cast; omega)) (convLen_one (by push_cast; omega))
  refine key.mono fun r hr => isBatch_img hr.1 fun b o y z => ?_
  rw [hr.data b.2 o.2 y.2 z.2, convF]
  simp only [row_pix, col_pix, chan_pix]
  congr 1
  · rw [Finset.sum_range]
    refine Finset.sum_congr rfl fun c _ => ?_
    rw [Finset.sum_range]
    refine Finset.sum_congr rfl fun i _ => ?_
    rw [Finset.sum_range]
    refine Finset.sum_congr rfl fun j _ => ?_
    rw [padAt_nat (img := fun u v => X b (pix c u v)) fun u v => hx.img b c u v, eK]
    simp
  · cases bias with
    | none =>
      cases bId with
      | some _ => cases hb
      | none => simp [biasAt, biasLen]
    | some t =>
      cases bId with
      | none => cases hb
      | some i =>
        simp only [biasAt]
        rw [dif_pos (show (o : Nat) < biasLen (some i) c2 from o.2), ← eb t rfl, get1 (hbs t rfl)]

end

theorem OptW.ret {p : Nat} {q : Res (Option (Tensor ℝ))} {P : Tensor ℝ → Prop} (hp : 0 < p) (h : Ret q (IsSome P)) : Ret q (OptW p P) :=
  h.mono fun r hr => by rw [OptW, if_neg (by omega)]; exact hr

section
variable {bId : Option Nat} {W : Tensor ℝ} {w : Fin (c2 * c1 * kh * kw + biasLen bId c2) → ℝ} {K : Nat → Nat → Nat → Nat → ℝ}
  {bias : Option (Tensor ℝ)}

/-- weight products with the bias part -/
theorem vjpW_spec (hf : Fits cfg h1 w1 h2 w2 kh kw ph pw) (hB : 0 < B) (hx : IsBatch x B [c1, h1, w1] (c1 * h1 * w1) X)
    (hb : bias.isSome = bId.isSome) {v : Tensor ℝ} {Y : Fin B → Fin (c2 * h2 * w2) → ℝ} (hv : IsBatch v B [c2, h2, w2] (c2 * h2 * w2) Y)
    {u : Tensor ℝ} {U : Fin B → Fin (c2 * h2 * w2) → ℝ} (hu : IsVec u B (c2 * h2 * w2) U) :
    Ret (vjp cfg W bias x (some v) u .weight) (IsSome fun t => IsVec t B (c2 * c1 * kh * kw + biasLen bId c2) fun b =>
      U b ᵥ* hcat (convJK c1 h1 w1 c2 h2 w2 kh kw ph pw (X b)) (convJB bId c2 h2 w2)) := by
  simp only [vjp, getVal, hx.dims4, hv.dims4, Res.bind_ok]
  refine (Ret.assertR hu.1).bind fun _ _ => ?_
  refine (reshape_data (by rw [Tensor.numel, hu.1]; simp only [size_cons, size_nil]; ring)).bind fun v0 h0 => ?_
  have n0 : N4 v0 B c2 h2 w2 fun b o y z => u.data (b * (c2 * h2 * w2) + ((o * h2 + y) * w2 + z)) := N4.of_data h0.1 fun i a y z _ _ _ _ => by
    rw [h0.2]; congr 1; ring
  have e0 : ∀ (b : Fin B) (o : Fin c2) (y : Fin h2) (z : Fin w2), u.data ((b : Nat) * (c2 * h2 * w2) + ((o * h2 + y) * w2 + z)) = U b (pix o y z) :=
    fun b o y z => by rw [← hu.data, pix_val]
  refine (flip_4_hw n0).bind fun v1 h1' => ?_
  refine (vjpW_core hf hB hx (F := fun b o y z => u.data (b * (c2 * h2 * w2) + ((o * h2 + y) * w2 + z))) h1' e0).bind fun r hr => ?_
  cases bId with
  | none =>
    cases bias with
    | some _ => cases hb
    | none =>
      refine Ret.ok (show IsVec r B _ _ from ⟨hr.1, fun b k => ?_⟩)
      refine Eq.trans ?_ (congrFun (vecMul_hcat _ _ _) k).symm
      exact (hr.2 b k).trans (Fin.append_left _ _ k).symm
  | some bi =>
    cases bias with
    | none => cases hb
    | some bt =>
      have hbT : Ret (einsum% "bchw->bc" [v0]) fun e => IsVec e B c2 fun b => U b ᵥ* convJB (some bi) c2 h2 w2 := by
        ein [('b', B), ('c', c2), ('h', h2), ('w', w2)] [n0.1, n0.2]
        rename_i b o
        refine Eq.trans ?_ (sum_convJB (U := U b) (F := fun r s => u.data ((b : Nat) * (c2 * h2 * w2) + ((o * h2 + r) * w2 + s))) bi o (fun r s => e0 b o r s))
        rw [Finset.sum_range]
        refine Finset.sum_congr rfl fun r _ => ?_
        rw [Finset.sum_range]
      refine hbT.bind fun e he => ((cat2_vec (n := biasLen (some bi) c2) hr he).mono fun t ht => ht.congr fun b k => ?_).some
      rw [vecMul_hcat]; rfl

theorem mjpW_spec (hf : Fits cfg h1 w1 h2 w2 kh kw ph pw) (hB : 0 < B) (hc2 : 0 < c2) (hx : IsBatch x B [c1, h1, w1] (c1 * h1 * w1) X)
    (hb : bias.isSome = bId.isSome) {v : Tensor ℝ} {Y : Fin B → Fin (c2 * h2 * w2) → ℝ} (hv : IsBatch v B [c2, h2, w2] (c2 * h2 * w2) Y)
    {rows : Nat} {m : Tensor ℝ} {Z : Fin B → Matrix (Fin rows) (Fin (c2 * h2 * w2)) ℝ} (hm : IsMat m B rows (c2 * h2 * w2) Z) :
    Ret (mjpSome cfg W bias x v m .weight) (IsSome fun t => IsMat t B rows (c2 * c1 * kh * kw + biasLen bId c2) fun b =>
      Z b * hcat (convJK c1 h1 w1 c2 h2 w2 kh kw ph pw (X b)) (convJB bId c2 h2 w2)) := by
  have p2 := hf.ph2; have p3 := hf.pw2
  have hd : m.dim 1 = .ok rows := by simp [Tensor.dim, hm.1]
  simp only [mjpSome, hx.dims4, hv.dims4, Res.bind_ok, hd]
  refine (Ret.assertR hm.1).bind fun _ _ => ?_
  refine (movedim_3_swap hm.n3).bind fun m1 hm1 => ?_
  refine (reshape_data (by rw [hm1.numel]; simp only [size_cons, size_nil]; ring)).bind fun m2 hm2 => ?_
  have n2 : N5 m2 B c2 h2 w2 rows fun b o r s q => m.data ((b * rows + q) * (c2 * h2 * w2) + ((o * h2 + r) * w2 + s)) :=
    N5.of_data hm2.1 fun b o r s q hb ho hr hs hq => by
      rw [hm2.2, ← hm1.data hb (lt_pair (lt_pair ho hr) hs) hq]; congr 1; ring
  have e0 : ∀ (b : Fin B) (o : Fin c2) (q : Fin rows) (y : Fin h2) (z : Fin w2),
      m.data (((b : Nat) * rows + q) * (c2 * h2 * w2) + ((o * h2 + y) * w2 + z)) = Z b q (pix o y z) :=
    fun b o q y z => by rw [← hm.data', pix_val]
  refine (flip_5_23 n2).bind fun m3 hm3 => ?_
  refine (mjpW_core hf hB hx (F := fun b o q r s => m.data ((b * rows + q) * (c2 * h2 * w2) + ((o * h2 + r) * w2 + s))) hm3 e0).bind fun r hr => ?_
  refine (swap_mat hr).bind fun r1 hr1 => ?_
  simp only [transpose_transpose] at hr1
  cases bId with
  | none =>
    cases bias with
    | some _ => cases hb
    | none =>
      refine Ret.ok (show IsMat r1 B _ _ _ from ⟨hr1.1, fun b i k => ?_⟩)
      refine Eq.trans ?_ (congrFun (congrFun (mul_hcat _ _ _) i) k).symm
      exact (hr1.2 b i k).trans (hcat_left _ _ i k).symm
  | some bi =>
    cases bias with
    | none => cases hb
    | some bt =>
      refine (reshapeInfer_data (q := rows) (by simp [size_cons]; exact ⟨hB, hc2, p2, p3⟩) (by rw [Tensor.numel, hm.1]; simp only [size_cons, size_nil]; ring)).bind
        fun m4 hm4 => ?_
      have n4 : N5 m4 B rows c2 h2 w2 fun b q o r s => m.data ((b * rows + q) * (c2 * h2 * w2) + ((o * h2 + r) * w2 + s)) :=
        N5.of_data hm4.1 fun b o r s q hb ho hr hs hq => by rw [hm4.2]; congr 1; ring
      have hbT : Ret (einsum% "bvchw->bvc" [m4]) fun e => IsMat e B rows c2 fun b => Z b * convJB (some bi) c2 h2 w2 := by
        ein [('b', B), ('v', rows), ('c', c2), ('h', h2), ('w', w2)] [n4.1, n4.2]
        rename_i b q o
        refine Eq.trans ?_ (sum_convJB (U := Z b q) (F := fun r s => m.data (((b : Nat) * rows + q) * (c2 * h2 * w2) + ((o * h2 + r) * w2 + s))) bi o (fun r s => e0 b o q r s))
        rw [Finset.sum_range]
        refine Finset.sum_congr rfl fun r _ => ?_
        rw [Finset.sum_range]
      refine hbT.bind fun e he => ((cat2_cols (q := biasLen (some bi) c2) hr1 he).mono fun t ht => ht.congr fun b i k => ?_).some
      rw [mul_hcat]

end

theorem jTmjpInputFull_spec {bId : Option Nat} {W : Tensor ℝ} {w : Fin (c2 * c1 * kh * kw + biasLen bId c2) → ℝ} {K : Nat → Nat → Nat → Nat → ℝ}
    {bias : Option (Tensor ℝ)} (hf : Fits cfg h1 w1 h2 w2 kh kw ph pw) (hW : N4 W c2 c1 kh kw K) (hc2 : 0 < c2)
    (eK : ∀ (o : Fin c2) (c : Fin c1) (i : Fin kh) (j : Fin kw), K o c i j = w (Fin.castAdd _ (kix o c i j)))
    (hx : IsBatch x B [c1, h1, w1] (c1 * h1 * w1) X)
    {v m : Tensor ℝ} {Y : Fin B → Fin (c2 * h2 * w2) → ℝ} (hv : IsBatch v B [c2, h2, w2] (c2 * h2 * w2) Y)
    {Z : Fin B → Matrix (Fin (c2 * h2 * w2)) (Fin (c2 * h2 * w2)) ℝ} (hm : IsMat m B (c2 * h2 * w2) (c2 * h2 * w2) Z) :
    Ret (jTmjpInputFull cfg W bias x v m) fun t => IsMat t B (c1 * h1 * w1) (c1 * h1 * w1) fun b =>
      (convJ bId c1 h1 w1 c2 h2 w2 kh kw ph pw w)ᵀ * Z b * convJ bId c1 h1 w1 c2 h2 w2 kh kw ph pw w := by
  have hmjp : ∀ {rows : Nat} {m : Tensor ℝ} {Z : Fin B → Matrix (Fin rows) (Fin (c2 * h2 * w2)) ℝ}, IsMat m B rows (c2 * h2 * w2) Z →
      Ret (mjp cfg W bias x (some v) (some m) .input) (IsSome fun t => IsMat t B rows (c1 * h1 * w1) fun b =>
        Z b * convJ bId c1 h1 w1 c2 h2 w2 kh kw ph pw w) := by
    intro rows m Z hm
    have hd : m.dim 1 = .ok rows := by simp [Tensor.dim, hm.1]
    simp only [mjp, getVal, mjpSome, hx.dims4, hv.dims4, Res.bind_ok, hd]
    refine (Ret.assertR hm.1).bind fun _ _ => ?_
    have := (mjpI_spec hf hW hc2 eK hm).some
    simpa only [map_bind] using this
  simp only [jTmjpInputFull]
  obtain ⟨r, e, hr⟩ := (hmjp hm).exists_some
  simp only [e, needR, Res.bind_ok]
  refine (swap_mat' hr).bind fun r1 hr1 => ?_
  obtain ⟨r2, e2, hr2⟩ := (hmjp hr1).exists_some
  simp only [e2, Res.bind_ok]
  refine (swap_mat' hr2).mono fun t ht => ht.congr fun b i j => ?_
  rw [transpose_mul, transpose_transpose, Matrix.mul_assoc]

/-- `nnj.Conv2d` (stride 1, no dilation, one group, padding smaller than the kernel) meets the contract. -/
theorem leafB_conv {bId : Option Nat} {W : Tensor ℝ} {w : Fin (c2 * c1 * kh * kw + biasLen bId c2) → ℝ}
    {bias : Option (Tensor ℝ)} (hf : Fits cfg h1 w1 h2 w2 kh kw ph pw) (hc1 : 0 < c1) (hc2 : 0 < c2)
    (hW : W.shape = [c2, c1, kh, kw]) (eK : ∀ k : Fin (c2 * c1 * kh * kw), W.data k = w (Fin.castAdd _ k))
    (hbs : ∀ t ∈ bias, t.shape = [c2]) (hb : bias.isSome = bId.isSome)
    (eb : ∀ t ∈ bias, ∀ (o : Nat) (h : o < biasLen bId c2), t.data o = w (Fin.natAdd _ ⟨o, h⟩))
    (hP : cfg.nParams = c2 * c1 * kh * kw + biasLen bId c2) :
    LeafB (layer cfg W bias) [c1, h1, w1] (c1 * h1 * w1) [c2, h2, w2] (c2 * h2 * w2) (c2 * c1 * kh * kw + biasLen bId c2)
      (convF bId c1 h1 w1 c2 h2 w2 kh kw ph pw w) (fun _ => convJ bId c1 h1 w1 c2 h2 w2 kh kw ph pw w)
      (fun x => hcat (convJK c1 h1 w1 c2 h2 w2 kh kw ph pw x) (convJB bId c2 h2 w2)) := by
  have n4 : N4 W c2 c1 kh kw fun o c i j => W.data (((o * c1 + c) * kh + i) * kw + j) := N4.of_data hW fun _ _ _ _ _ _ _ _ => rfl
  have eK' : ∀ (o : Fin c2) (c : Fin c1) (i : Fin kh) (j : Fin kw), W.data (((o * c1 + c) * kh + i) * kw + j) = w (Fin.castAdd _ (kix o c i j)) :=
    fun o c i j => by rw [← eK, kix_val]
  have hp : 0 < c2 * c1 * kh * kw + biasLen bId c2 := Nat.lt_of_lt_of_le (Nat.mul_pos (Nat.mul_pos (Nat.mul_pos hc2 hc1) hf.pkh) hf.pkw) (Nat.le_add_right _ _)
  have hfw : ∀ {B : Nat} {X : Fin B → Fin (c1 * h1 * w1) → ℝ} {x : Tensor ℝ}, IsBatch x B [c1, h1, w1] (c1 * h1 * w1) X →
      Ret (forward cfg W bias x) fun v => IsBatch v B [c2, h2, w2] (c2 * h2 * w2) fun b => convF bId c1 h1 w1 c2 h2 w2 kh kw ph pw w (X b) :=
    fun hx => forward_spec hf n4 eK' hbs hb eb hx
  have hgv : ∀ {B : Nat} {X : Fin B → Fin (c1 * h1 * w1) → ℝ} {x : Tensor ℝ} {val : Option (Tensor ℝ)}, IsBatch x B [c1, h1, w1] (c1 * h1 * w1) X →
      (∀ v ∈ val, IsBatch v B [c2, h2, w2] (c2 * h2 * w2) fun b => convF bId c1 h1 w1 c2 h2 w2 kh kw ph pw w (X b)) →
      Ret (getVal cfg W bias x val) fun v => IsBatch v B [c2, h2, w2] (c2 * h2 * w2) fun b => convF bId c1 h1 w1 c2 h2 w2 kh kw ph pw w (X b) := by
    intro B X x val hx hv
    cases val with
    | none => exact hfw hx
    | some v => exact Ret.ok (hv v rfl)
  have hmI : ∀ {B : Nat} {X : Fin B → Fin (c1 * h1 * w1) → ℝ} {x v m : Tensor ℝ} {Y : Fin B → Fin (c2 * h2 * w2) → ℝ} {rows : Nat}
      {Z : Fin B → Matrix (Fin rows) (Fin (c2 * h2 * w2)) ℝ}, IsBatch x B [c1, h1, w1] (c1 * h1 * w1) X → IsBatch v B [c2, h2, w2] (c2 * h2 * w2) Y →
      IsMat m B rows (c2 * h2 * w2) Z →
      Ret (mjpSome cfg W bias x v m .input) (IsSome fun t => IsMat t B rows (c1 * h1 * w1) fun b =>
        Z b * convJ bId c1 h1 w1 c2 h2 w2 kh kw ph pw w) := by
    intro B X x v m Y rows Z hx hv hm
    have hd : m.dim 1 = .ok rows := by simp [Tensor.dim, hm.1]
    simp only [mjpSome, hx.dims4, hv.dims4, Res.bind_ok, hd]
    refine (Ret.assertR hm.1).bind fun _ _ => ?_
    have := (mjpI_spec hf n4 hc2 eK' hm).some
    simpa only [map_bind] using this
  have hone : ∀ B, IsVec (ones [B, c2 * h2 * w2] : Tensor ℝ) B (c2 * h2 * w2) fun _ _ => 1 := fun B => ⟨rfl, fun _ _ => rfl⟩
  have hd1 : (diagonal (fun _ => 1) : Matrix (Fin (c2 * h2 * w2)) _ ℝ) = 1 := diagonal_one
  have hnum : ∀ {B : Nat} {m : Tensor ℝ} {U : Fin B → Fin (c2 * h2 * w2) → ℝ}, IsVec m B (c2 * h2 * w2) U → m.numel = B * c2 * h2 * w2 := by
    intro B m U hm
    rw [Tensor.numel, hm.1]; simp only [size_cons, size_nil]; ring
  refine {
    forward := fun _ hx => hfw hx, jacI := fun hB hx => ?_, jacW := fun hB hx => ?_
    vjpI := fun hB hx hv hu => ?_, vjpW := fun hB hx hv hu => ?_
    mjpI := fun hB hx hv hr hA => ?_, mjpW := fun hB hx hv hr hA => ?_
    jTI := fun fd td hB hx hv hA => ?_, jTW := fun fd td hB hx hv hA => ?_, jT_db := rfl }
  · simp only [layer, jacobian]
    refine (hgv hx (by simp)).bind fun v hv' => ?_
    simp only [hv'.dims4, Res.bind_ok]
    refine (diagEmbed_vec (hone _)).bind fun r hr => (hmI hx hv' hr).mono fun t ht => ht.mono fun t ht => ht.congr fun b i j => ?_
    rw [hd1, Matrix.one_mul]
  · simp only [layer, jacobian]
    refine OptW.ret hp ((hgv hx (by simp)).bind fun v hv' => ?_)
    simp only [hv'.dims4, Res.bind_ok]
    refine (diagEmbed_vec (hone _)).bind fun r hr => (mjpW_spec hf hB hc2 hx hb hv' hr).mono fun t ht => ht.mono fun t ht => ht.congr fun b i j => ?_
    rw [hd1, Matrix.one_mul]
  · simp only [layer, vjp]
    refine (hgv hx hv).bind fun v hv' => ?_
    simp only [hx.dims4, hv'.dims4, Res.bind_ok]
    refine (Ret.assertR hu.1).bind fun _ _ => ?_
    have := (vjpI_spec hf n4 eK' hu).some
    simpa only [map_bind] using this
  · obtain ⟨v, e, hv'⟩ := hgv hx hv
    have h2 := vjpW_spec (W := W) hf hB hx hb hv' hu
    simp only [vjp, getVal] at h2
    simp only [layer, vjp, e]
    exact OptW.ret hp h2
  · simp only [layer, mjp]
    exact (hgv hx hv).bind fun v hv' => hmI hx hv' hA
  · simp only [layer, mjp]
    exact OptW.ret hp ((hgv hx hv).bind fun v hv' => mjpW_spec hf hB hc2 hx hb hv' hA)
  · simp only [layer, jTmjp]
    refine (hgv hx hv).bind fun v hv' => ?_
    cases fd <;> cases td <;> dsimp only
    · exact (jTmjpInputFull_spec hf n4 hc2 eK' hx hv' hA).some
    · exact (jTmjpInputFull_spec hf n4 hc2 eK' hx hv' hA).bind fun r hr => (diagonal12_mat hr).some
    · obtain ⟨d, hd, hZ⟩ := hA
      exact (diagEmbed_vec hd).bind fun r hr => ((jTmjpInputFull_spec hf n4 hc2 eK' hx hv' hr).mono fun t ht => ht.congr fun b i j => by rw [hZ]).some
    · obtain ⟨d, hd, hZ⟩ := hA
      refine ((diagI_spec hf n4 hc2 eK' hx hv' (hnum hd) fun b k => hd.data b k).mono fun t ht => ?_).some
      refine IsVec.congr ht fun b i => ?_
      simp only [hZ]
      rw [diag_sandwichT]
  · simp only [layer, jTmjp]
    refine OptW.ret hp ((hgv hx hv).bind fun v hv' => ?_)
    cases fd <;> cases td <;> dsimp only
    · exact (jTmjpWeightFull_spec hf hb hP hB hc2 hx hv' hA).some
    · exact (jTmjpWeightFull_spec hf hb hP hB hc2 hx hv' hA).bind fun r hr => (diagonal12_mat hr).some
    · obtain ⟨d, hd, hZ⟩ := hA
      exact (diagEmbed_vec hd).bind fun r hr => ((jTmjpWeightFull_spec hf hb hP hB hc2 hx hv' hr).mono fun t ht => ht.congr fun b i j => by rw [hZ]).some
    · obtain ⟨d, hd, hZ⟩ := hA
      refine ((jTmjpWeightDiag_spec hf hb hB hx hv' (hnum hd) fun b k => hd.data b k).mono fun t ht => ?_).some
      refine IsVec.congr ht fun b i => ?_
      simp only [hZ]
      rw [diag_sandwichT]

end
end Conv2d
end NNJ
