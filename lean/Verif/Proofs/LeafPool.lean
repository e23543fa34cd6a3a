import Verif.Proofs.PoolCore

/-! The products of MaxPool2d, for given indices. -/

namespace NNJ
open Tensor Matrix

/-- assignment of the rows of `v` to the positions `tg` of the rows of a zero tensor -/
theorem scatter_rows {R c P Q K N : Nat} {z v : Tensor ℝ} {ar ix : Tensor Nat} {tg : Fin R → Fin K → Nat} (hK : K = c * Q) (hN : N = c * P)
    (hz : z.shape = [R * c, P]) (z0 : ∀ p, z.data p = 0) (hv : v.shape = [R * c, Q]) (har : ar.shape = [R * c, Q])
    (hix : ix.shape = [R * c, Q]) (dar : ∀ i, ar.data i = i / Q)
    (dix : ∀ (g : Fin R) (k : Fin K), ix.data (g * K + k) < P)
    (htg : ∀ (g : Fin R) (k : Fin K), (k : Nat) / Q * P + ix.data (g * K + k) = tg g k)
    (hinj : ∀ (g : Fin R) (k k' : Fin K), tg g k = tg g k' → k = k') :
    Ret (z.indexPut [ar, ix] v) fun r => r.shape = [R * c, P] ∧
      ∀ (g : Fin R) (m : Fin N), r.data (g * N + m) = ∑ k : Fin K, if (m : Nat) = tg g k then v.data (g * K + k) else 0 := by
  subst hK hN
  have hn : v.numel = R * (c * Q) := by rw [Tensor.numel, hv]; simp only [size_cons, size_nil]; ring
  have hdiv : ∀ (g : Fin R) (k : Fin (c * Q)), ((g : Nat) * (c * Q) + k) / Q = g * c + k / Q := by
    intro g k
    have hQ : 0 < Q := by
      rcases Nat.eq_zero_or_pos Q with h | h
      · have := k.2; simp [h] at this
      · exact h
    rw [show (g : Nat) * (c * Q) + k = Q * (g * c) + k by ring, Nat.mul_add_div hQ]
  have hpos : ∀ (g : Fin R) (k : Fin (c * Q)), indexPos [R * c, P] [ar, ix] (g * (c * Q) + k) = g * (c * P) + tg g k := by
    intro g k
    have : indexPos [R * c, P] [ar, ix] (g * (c * Q) + k) = ar.data (g * (c * Q) + k) * P + ix.data (g * (c * Q) + k) := by
      simp [indexPos, ravel]
    rw [this, dar, hdiv, ← htg]; ring
  have hkc : ∀ k : Fin (c * Q), (k : Nat) / Q < c := fun k => Nat.div_lt_of_lt_mul (Nat.lt_of_lt_of_eq k.2 (Nat.mul_comm _ _))
  have htl : ∀ (g : Fin R) (k : Fin (c * Q)), tg g k < c * P := by
    intro g k
    rw [← htg]; exact lt_pair (hkc k) (dix g k)
  have hex : ∀ i, i < v.numel → ∃ (g : Fin R) (k : Fin (c * Q)), i = g * (c * Q) + k := by
    intro i hi
    rw [hn] at hi
    obtain ⟨g, k, hg, hk, e⟩ := exists_pair hi
    exact ⟨⟨g, hg⟩, ⟨k, hk⟩, e⟩
  refine (indexPut_zeros hz z0 rfl (by simp [har, hix, hv]) ?_ ?_).mono fun r hr => ⟨hr.1, fun g m => ?_⟩
  · intro i hi
    obtain ⟨g, k, rfl⟩ := hex i hi
    simp only [indexOk, List.zipWith_cons_cons, List.zipWith_nil_left, List.all_cons, List.all_nil, Bool.and_true, Bool.and_eq_true]
    refine ⟨decide_eq_true ?_, decide_eq_true (dix g k)⟩
    rw [dar, hdiv]
    exact lt_pair g.2 (hkc k)
  · intro i hi i' hi' e
    obtain ⟨g, k, rfl⟩ := hex i hi
    obtain ⟨g', k', rfl⟩ := hex i' hi'
    rw [hpos, hpos] at e
    obtain ⟨e1, e2⟩ := pair_inj (htl g k) (htl g' k') e
    obtain rfl := Fin.ext e1
    rw [hinj _ _ _ e2]
  · rw [hr.2, hn]
    let tn : Nat → Nat → Nat := fun g k => if h : g < R ∧ k < c * Q then tg ⟨g, h.1⟩ ⟨k, h.2⟩ else 0
    have ht : ∀ (g : Fin R) (k : Fin (c * Q)), tn g k = tg g k := fun g k => by simp [tn, g.2, k.2]
    rw [sum_scatter (tg := tn) (fun b hb k hk => (hpos ⟨b, hb⟩ ⟨k, hk⟩).trans (by rw [← ht ⟨b, hb⟩ ⟨k, hk⟩]))
      (fun b hb k hk => by rw [ht ⟨b, hb⟩ ⟨k, hk⟩]; exact htl _ _) g.2 m.2, Finset.sum_range]
    simp only [ht]

namespace MaxPool2d
variable {a : Torch.PoolArgs} {c h w h2 w2 B : Nat}

/-- `idx` holds the positions of the maxima of the batch `X` -/
def IdxOk (a : Torch.PoolArgs) (c h w h2 w2 : Nat) (idx : Tensor Nat) {B : Nat} (X : Fin B → Fin (c * h * w) → ℝ) : Prop :=
  idx.shape = [B, c, h2, w2] ∧ ∀ (b : Fin B) (k : Fin (c * h2 * w2)), idx.data (b * (c * h2 * w2) + k) = poolPos a (X b) k

/-- the matrix of the layer at `x` -/
noncomputable def poolJ (a : Torch.PoolArgs) (c h w h2 w2 : Nat) (x : Fin (c * h * w) → ℝ) : Matrix (Fin (c * h2 * w2)) (Fin (c * h * w)) ℝ :=
  fun k m => if (m : Nat) = tgt a x k then 1 else 0

theorem mul_poolJ {r : Nat} (Z : Matrix (Fin r) (Fin (c * h2 * w2)) ℝ) (x : Fin (c * h * w) → ℝ) (i : Fin r) (m : Fin (c * h * w)) :
    (Z * poolJ a c h w h2 w2 x) i m = ∑ k, if (m : Nat) = tgt a x k then Z i k else 0 := by
  rw [mul_apply]
  exact Finset.sum_congr rfl fun k _ => by simp [poolJ]

theorem vecMul_poolJ (u : Fin (c * h2 * w2) → ℝ) (x : Fin (c * h * w) → ℝ) (m : Fin (c * h * w)) :
    (u ᵥ* poolJ a c h w h2 w2 x) m = ∑ k, if (m : Nat) = tgt a x k then u k else 0 := by
  rw [vecMul, dotProduct]
  exact Finset.sum_congr rfl fun k _ => by simp [poolJ]

theorem poolJ_mul {r : Nat} (hf : PoolSizes a h w h2 w2) (Z : Matrix (Fin (c * h * w)) (Fin r) ℝ) (x : Fin (c * h * w) → ℝ) (k : Fin (c * h2 * w2)) (i : Fin r) :
    (poolJ a c h w h2 w2 x * Z) k i = Z ⟨tgt a x k, tgt_lt hf x k⟩ i := by
  rw [mul_apply, Finset.sum_eq_single ⟨tgt a x k, tgt_lt hf x k⟩]
  · simp [poolJ]
  · intro m _ hm
    rw [poolJ, if_neg fun e => hm (Fin.ext e), zero_mul]
  · simp

theorem forward_ret (hf : PoolSizes a h w h2 w2) {x : Tensor ℝ} {X : Fin B → Fin (c * h * w) → ℝ} (hx : IsBatch x B [c, h, w] (c * h * w) X) :
    Ret (Torch.maxPool2d x a) fun r =>
      IsBatch r.1 B [c, h2, w2] (c * h2 * w2) (fun b k => plane (X b) (chan k) (poolPos a (X b) k)) ∧ IdxOk a c h w h2 w2 r.2 X := by
  have hd1 := hf.d1; have hd2 := hf.d2; have hk1 := hf.k1; have hk2 := hf.k2; have hs1 := hf.s1; have hs2 := hf.s2
  have hp1 := hf.p1; have hp2 := hf.p2
  have hh2 := hf.hh2; have hw2 := hf.hw2
  simp only [Torch.maxPool2d, hx.1, hf.l1, hf.l2, Int.toNat_natCast]
  rw [if_neg (by omega), if_neg (by omega), if_neg (by omega)]
  have ep : ∀ (b : Fin B) (ch : Fin c) q, q < h * w → x.data (((b : Nat) * c + ch) * (h * w) + q) = plane (X b) ch q := by
    intro b ch q hq
    have hl : (ch : Nat) * (h * w) + q < c * h * w := by rw [Nat.mul_assoc]; exact lt_pair ch.2 hq
    rw [plane, dif_pos hl, ← hx.2]
    congr 1; simp only; ring
  have hflat : ∀ (b : Fin B) (k : Fin (c * h2 * w2)), ravel [B, c, h2, w2] [(b : Nat), ((chan k : Fin c) : Nat), ((row k : Fin h2) : Nat), ((col k : Fin w2) : Nat)]
      = b * (c * h2 * w2) + k := by
    intro b k
    obtain ⟨ch, y, z, rfl⟩ := pix_surj k
    simp only [chan_pix, row_pix, col_pix, pix_val]
    simp [ravel]; ring
  have ebest : ∀ (b : Fin B) (k : Fin (c * h2 * w2)),
      Torch.argmax (fun q => x.data (((b : Nat) * c + (chan k : Fin c)) * (h * w) + q)) (Torch.window h w a (row k : Fin h2) (col k : Fin w2))
        = poolPos a (X b) k := by
    intro b k
    have hcong : ∀ (f g : Nat → ℝ) (l : List Nat) (cur : Nat), f cur = g cur → (∀ i ∈ l, f i = g i) → Torch.argmaxFrom f cur l = Torch.argmaxFrom g cur l := by
      intro f g l
      induction l with
      | nil => intros; rfl
      | cons i l ih =>
        intro cur e0 e
        have ei := e i (by simp)
        simp only [Torch.argmaxFrom, e0, ei]
        split
        · exact ih i ei fun j hj => e j (List.mem_cons_of_mem _ hj)
        · exact ih cur e0 fun j hj => e j (List.mem_cons_of_mem _ hj)
    have hall : ∀ q ∈ Torch.window h w a (row k : Fin h2) (col k : Fin w2), x.data (((b : Nat) * c + (chan k : Fin c)) * (h * w) + q) = plane (X b) (chan k) q := by
      intro q hq
      obtain ⟨_, _, _, _, yy, hy, zz, hz, _, _, e⟩ := mem_window.1 hq
      exact ep b (chan k) q (by rw [e]; exact lt_pair hy hz)
    rw [poolPos]
    cases hwin : Torch.window h w a (row k : Fin h2) (col k : Fin w2) with
    | nil => rfl
    | cons i l =>
      rw [hwin] at hall
      exact hcong _ _ l i (hall i (by simp)) fun j hj => hall j (List.mem_cons_of_mem _ hj)
  refine Ret.ok ⟨⟨rfl, fun b k => ?_⟩, rfl, fun b k => ?_⟩
  · simp only
    rw [← hflat, ofFn_data_ravel _ (by simp)]
    simp only [List.getD_cons_succ, List.getD_cons_zero]
    rw [ebest, ep b (chan k) _ (poolPos_lt hf _ k)]
  · simp only
    rw [← hflat, ofFn_data_ravel _ (by simp)]
    simp only [List.getD_cons_succ, List.getD_cons_zero]
    rw [ebest]

section
variable {x val : Tensor ℝ} {idx : Tensor Nat} {X : Fin B → Fin (c * h * w) → ℝ} {Y : Fin B → Fin (c * h2 * w2) → ℝ}

theorem vjpBody_ret (hf : PoolFits a h w h2 w2) (hx : IsBatch x B [c, h, w] (c * h * w) X) (hv : IsBatch val B [c, h2, w2] (c * h2 * w2) Y)
    (hi : IdxOk a c h w h2 w2 idx X) {u : Tensor ℝ} {U} (hu : IsVec u B (c * h2 * w2) U) :
    Ret (vjpBody x val u idx) fun r => IsVec r B (c * h * w) fun b => U b ᵥ* poolJ a c h w h2 w2 (X b) := by
  simp only [vjpBody, hx.dims4, hv.dims4, Res.bind_ok, assertR, hu.1]
  have nu : u.numel = B * (c * h2 * w2) := by rw [Tensor.numel, hu.1]; simp only [size_cons, size_nil]; ring
  have ni : idx.numel = B * (c * h2 * w2) := by rw [Tensor.numel, hi.1]; simp only [size_cons, size_nil]; ring
  refine (reshape_data (s := [B * c, h2 * w2]) (by rw [nu]; simp only [size_cons, size_nil]; ring)).bind fun v hv' => ?_
  refine arange_repeat.bind fun ar har => ?_
  refine (reshape_data (s := [B * c, h2 * w2]) (by rw [Tensor.numel, har.1]; simp only [size_cons, size_nil]; ring)).bind fun ar' har' => ?_
  refine (reshape_data (s := [B * c, h2 * w2]) (by rw [ni]; simp only [size_cons, size_nil]; ring)).bind fun ix hix => ?_
  refine (scatter_rows (tg := fun b k => tgt a (X b) k) (K := c * h2 * w2) (N := c * h * w) (Nat.mul_assoc _ _ _) (Nat.mul_assoc _ _ _) rfl (fun _ => rfl) hv'.1 har'.1 hix.1
    (fun i => by rw [har'.2, har.2]) (fun b k => by rw [hix.2, hi.2]; exact poolPos_lt hf.toPoolSizes _ _)
    (fun b k => by rw [hix.2, hi.2, ← chan_val]; rfl) (fun b k k' e => tgt_inj hf _ e)).bind fun r hr => ?_
  refine (reshape_data (s := [B, c * h * w]) (by rw [Tensor.numel, hr.1]; simp only [size_cons, size_nil]; ring)).mono fun r' hr' => ⟨hr'.1, fun b m => ?_⟩
  rw [get2 hr'.1, hr'.2, hr.2]
  refine Eq.trans ?_ (vecMul_poolJ _ _ _).symm
  exact Finset.sum_congr rfl fun k _ => by rw [hv'.2, hu.data]

theorem mjpBody_ret (hf : PoolFits a h w h2 w2) (hx : IsBatch x B [c, h, w] (c * h * w) X) (hv : IsBatch val B [c, h2, w2] (c * h2 * w2) Y)
    (hi : IdxOk a c h w h2 w2 idx X) {r : Nat} {A : Tensor ℝ} {Z} (hA : IsMat A B r (c * h2 * w2) Z) :
    Ret (mjpBody x val A idx) fun t => IsMat t B r (c * h * w) fun b => Z b * poolJ a c h w h2 w2 (X b) := by
  have hd : ∀ {i d}, [B, r, c * h2 * w2][i]? = some d → A.dim i = .ok d := by
    intro i d hi; simp only [Tensor.dim, hA.1, hi]
  simp only [mjpBody, hx.dims4, hv.dims4, Res.bind_ok, assertR, hd (i := 0) rfl, hd (i := 1) rfl, hd (i := 2) rfl, and_self]
  have nu : A.numel = B * r * (c * h2 * w2) := by rw [Tensor.numel, hA.1]; simp only [size_cons, size_nil]; ring
  have ni : idx.numel = B * (c * h2 * w2) := by rw [Tensor.numel, hi.1]; simp only [size_cons, size_nil]; ring
  refine (reshape_data (s := [B * r * c, h2 * w2]) (by rw [nu]; simp only [size_cons, size_nil]; ring)).bind fun v hv' => ?_
  refine arange_repeat.bind fun ar har => ?_
  refine (reshape_data (s := [B * r * c, h2 * w2]) (by rw [Tensor.numel, har.1]; simp only [size_cons, size_nil]; ring)).bind fun ar' har' => ?_
  refine (reshape_data (s := [B, c, h2 * w2]) (by rw [ni]; simp only [size_cons, size_nil]; ring)).bind fun i1 h1 => ?_
  refine (unsqueeze_data (d := 1) (by rw [h1.1]; simp)).bind fun i2 h2' => ?_
  have n2 : N4 i2 B 1 c (h2 * w2) fun b _ ch q => idx.data ((b * c + ch) * (h2 * w2) + q) :=
    N4.of_data (by rw [h2'.1, h1.1]; rfl) fun b o ch q _ ho _ _ => by
      obtain rfl : o = 0 := by omega
      rw [h2'.2, h1.2]; congr 1; ring
  refine (expandAt_4_1 n2).bind fun i3 h3 => ?_
  refine (reshape_data (s := [B * r * c, h2 * w2]) (by rw [h3.numel]; simp only [size_cons, size_nil]; ring)).bind fun ix hix => ?_
  let bt : Fin (B * r) → Fin B := fun g => (finProdFinEquiv.symm g).1
  have eix : ∀ (g : Fin (B * r)) (k : Fin (c * h2 * w2)), ix.data (g * (c * h2 * w2) + k) = poolPos a (X (bt g)) k := by
    intro g k
    obtain ⟨⟨b, i⟩, rfl⟩ := finProdFinEquiv.surjective g
    have hbt : bt (finProdFinEquiv (b, i)) = b := congrArg Prod.fst (finProdFinEquiv.symm_apply_apply (b, i))
    rw [hbt, hix.2, ← hi.2]
    obtain ⟨ch, y, z, rfl⟩ := pix_surj k
    have hq : (y : Nat) * w2 + z < h2 * w2 := lt_pair y.2 z.2
    have := h3.data b.2 i.2 ch.2 hq
    rw [finProdFinEquiv_apply_val, pix_val]
    refine Eq.trans ?_ (this.trans ?_)
    · congr 1; simp only; ring
    · congr 1; ring
  refine (scatter_rows (R := B * r) (tg := fun g k => tgt a (X (bt g)) k) (K := c * h2 * w2) (N := c * h * w) (Nat.mul_assoc _ _ _) (Nat.mul_assoc _ _ _) rfl (fun _ => rfl) hv'.1 har'.1 hix.1
    (fun i => by rw [har'.2, har.2]) (fun b k => by rw [eix]; exact poolPos_lt hf.toPoolSizes _ _)
    (fun b k => by rw [eix, ← chan_val]; rfl) (fun b k k' e => tgt_inj hf _ e)).bind fun t ht => ?_
  refine (reshape_data (s := [B, r, c * h * w]) (by rw [Tensor.numel, ht.1]; simp only [size_cons, size_nil]; ring)).mono fun t' ht' => ⟨ht'.1, fun b i m => ?_⟩
  have hbt : bt (finProdFinEquiv (b, i)) = b := congrArg Prod.fst (finProdFinEquiv.symm_apply_apply (b, i))
  have e1 := ht.2 (finProdFinEquiv (b, i)) m
  rw [hbt] at e1
  simp only [finProdFinEquiv_apply_val] at e1
  rw [get3 ht'.1, ht'.2]
  refine Eq.trans ?_ (e1.trans (Eq.trans ?_ (mul_poolJ _ _ _ _).symm))
  · congr 1; ring
  · refine Finset.sum_congr rfl fun k _ => ?_
    rw [hv'.2, ← hA.data]
    congr 2; ring

/-- the terms of one channel -/
theorem sum_tgt (hf : PoolFits a h w h2 w2) (x : Fin (c * h * w) → ℝ) (ch : Fin c) {pp : Nat} (hpp : pp < h * w) {f : Fin (c * h2 * w2) → ℝ} {F : Nat → ℝ} {I : Nat → Nat}
    (hF : ∀ (y : Fin h2) (z : Fin w2), F (y * w2 + z) = f (pix ch y z)) (hI : ∀ (y : Fin h2) (z : Fin w2), I (y * w2 + z) = poolPos a x (pix ch y z)) :
    (∑ k, if (ch : Nat) * (h * w) + pp = tgt a x k then f k else 0) = ∑ q ∈ Finset.range (h2 * w2), if pp = I q then F q else 0 := by
  rw [sum_pix, Finset.sum_eq_single ch, sum_range_mul, Finset.sum_range]
  · refine Finset.sum_congr rfl fun y _ => ?_
    rw [Finset.sum_range]
    refine Finset.sum_congr rfl fun z _ => ?_
    rw [hF, hI, tgt, chan_pix]
    have : (ch : Nat) * (h * w) + pp = ch * (h * w) + poolPos a x (pix ch y z) ↔ pp = poolPos a x (pix ch y z) := by omega
    simp only [this]
  · intro ch' _ hne
    refine Finset.sum_eq_zero fun y _ => Finset.sum_eq_zero fun z _ => if_neg fun e => ?_
    rw [tgt, chan_pix] at e
    exact hne (Fin.ext (pair_inj hpp (poolPos_lt hf.toPoolSizes x _) e).1.symm)
  · simp

theorem jTmjpFull_ret (hf : PoolFits a h w h2 w2) (hi : IdxOk a c h w h2 w2 idx X) {t : Tensor ℝ} {Z} (ht : IsMat t B (c * h2 * w2) (c * h2 * w2) Z) :
    Ret (jTmjpFull B c h w h2 w2 t idx) fun r => IsMat r B (c * h * w) (c * h * w) fun b =>
      (poolJ a c h w h2 w2 (X b))ᵀ * Z b * poolJ a c h w h2 w2 (X b) := by
  have nt : t.numel = B * (c * h2 * w2) * (c * h2 * w2) := by rw [Tensor.numel, ht.1]; simp only [size_cons, size_nil]; ring
  have ni : idx.numel = B * (c * h2 * w2) := by rw [Tensor.numel, hi.1]; simp only [size_cons, size_nil]; ring
  let I : Nat → Nat → Nat → Nat := fun b ch q => idx.data ((b * c + ch) * (h2 * w2) + q)
  have hI : ∀ (b : Fin B) (ch : Fin c) (y : Fin h2) (z : Fin w2), I b ch (y * w2 + z) = poolPos a (X b) (pix ch y z) := by
    intro b ch y z
    rw [← hi.2, pix_val]; simp only [I]; congr 1; ring
  have hIl : ∀ b < B, ∀ ch < c, ∀ q < h2 * w2, I b ch q < h * w := by
    intro b hb ch hch q hq
    obtain ⟨y, z, hy, hz, rfl⟩ := exists_pair hq
    rw [hI ⟨b, hb⟩ ⟨ch, hch⟩ ⟨y, hy⟩ ⟨z, hz⟩]; exact poolPos_lt hf.toPoolSizes _ _
  have hIi : ∀ b < B, ∀ ch < c, ∀ q < h2 * w2, ∀ q' < h2 * w2, I b ch q = I b ch q' → q = q' := by
    intro b hb ch hch q hq q' hq' e
    obtain ⟨y, z, hy, hz, rfl⟩ := exists_pair hq
    obtain ⟨y', z', hy', hz', rfl⟩ := exists_pair hq'
    rw [hI ⟨b, hb⟩ ⟨ch, hch⟩ ⟨y, hy⟩ ⟨z, hz⟩, hI ⟨b, hb⟩ ⟨ch, hch⟩ ⟨y', hy'⟩ ⟨z', hz'⟩] at e
    have := tgt_inj hf (X ⟨b, hb⟩) (k := pix ⟨ch, hch⟩ ⟨y, hy⟩ ⟨z, hz⟩) (k' := pix ⟨ch, hch⟩ ⟨y', hy'⟩ ⟨z', hz'⟩) (by rw [tgt, tgt, chan_pix, chan_pix, e])
    rw [pix_inj] at this
    have e1 := congrArg Fin.val this.2.1
    have e2 := congrArg Fin.val this.2.2
    simp only at e1 e2
    rw [e1, e2]
  simp only [jTmjpFull]
  refine (reshape_data (by rw [nt]; simp only [size_cons, size_nil]; ring)).bind fun t1 h1 => ?_
  have n1 : N5 t1 B c (h2 * w2) c (h2 * w2) fun b ch q ch' q' =>
      t.data ((((b * c + ch) * (h2 * w2) + q) * c + ch') * (h2 * w2) + q') :=
    N5.of_data h1.1 fun b ch q ch' q' _ _ _ _ _ => by rw [h1.2]
  refine (movedim_5_32 n1).bind fun t2 d2 => ?_
  refine (reshape_data (by rw [d2.numel]; simp only [size_cons, size_nil]; ring)).bind fun t3 d3 => ?_
  refine arange_repeat.bind fun ar har => ?_
  refine (reshape_data (by rw [Tensor.numel, har.1]; simp only [size_cons, size_nil]; ring)).bind fun ar' har' => ?_
  refine (reshape_data (by rw [ni]; simp only [size_cons, size_nil]; ring)).bind fun i1 hi1 => ?_
  refine (unsqueeze_data (d := 2) (by rw [hi1.1]; simp)).bind fun i2 hi2 => ?_
  have m2 : N4 i2 B c 1 (h2 * w2) fun b ch _ q => I b ch q :=
    N4.of_data (by rw [hi2.1, hi1.1]; rfl) fun b ch o q _ _ ho _ => by
      obtain rfl : o = 0 := by omega
      rw [hi2.2, hi1.2]; simp only [I]; congr 1; ring
  refine (expandAt_4_2 m2).bind fun i3 hi3 => ?_
  refine (unsqueeze_data (d := 1) (by rw [hi3.1]; simp)).bind fun c1 hc1 => ?_
  have mc1 : N5 c1 B 1 c (h2 * w2) (h2 * w2) fun b _ ch _ q => I b ch q :=
    N5.of_data (by rw [hc1.1, hi3.1]; rfl) fun b o ch r q hb ho hch hr hq => by
      obtain rfl : o = 0 := by omega
      rw [hc1.2, ← hi3.data hb hch hr hq]; congr 1; ring
  refine (expandAt_5_1 mc1).bind fun c2 hc2 => ?_
  refine (reshape_data (by rw [hc2.numel]; simp only [size_cons, size_nil]; ring)).bind fun ic hic => ?_
  refine (unsqueeze_data (d := 2) (by rw [hi3.1]; simp)).bind fun r1 hr1 => ?_
  have mr1 : N5 r1 B c 1 (h2 * w2) (h2 * w2) fun b ch _ _ q => I b ch q :=
    N5.of_data (by rw [hr1.1, hi3.1]; rfl) fun b ch o r q hb hch ho hr hq => by
      obtain rfl : o = 0 := by omega
      rw [hr1.2, ← hi3.data hb hch hr hq]; congr 1; ring
  refine (expandAt_5_2 mr1).bind fun r2 hr2 => ?_
  refine (reshape_data (by rw [hr2.numel]; simp only [size_cons, size_nil]; ring)).bind fun r3 hr3 => ?_
  have mr3 : N3 r3 (B * c * c) (h2 * w2) (h2 * w2) fun g r q => r2.data ((g * (h2 * w2) + r) * (h2 * w2) + q) :=
    N3.of_data hr3.1 fun g r q _ _ _ => by rw [hr3.2]
  refine (movedim_3_swap mr3).bind fun ir hir => ?_
  -- positions
  have nv : t3.numel = B * c * c * (h2 * w2 * (h2 * w2)) := by rw [Tensor.numel, d3.1]; simp only [size_cons, size_nil]; ring
  have hex : ∀ i, i < t3.numel → ∃ b < B, ∃ ch < c, ∃ ch' < c, ∃ q < h2 * w2, ∃ q' < h2 * w2,
      i = ((b * c + ch) * c + ch') * (h2 * w2 * (h2 * w2)) + (q * (h2 * w2) + q') := by
    intro i hi
    rw [nv] at hi
    obtain ⟨g, k, hg, hk, rfl⟩ := exists_pair hi
    obtain ⟨g, ch', hg', hch', rfl⟩ := exists_pair hg
    obtain ⟨b, ch, hb, hch, rfl⟩ := exists_pair hg'
    obtain ⟨q, q', hq, hq', rfl⟩ := exists_pair hk
    exact ⟨b, hb, ch, hch, ch', hch', q, hq, q', hq', rfl⟩
  have ear : ∀ g {q q'}, q < h2 * w2 → q' < h2 * w2 → ar'.data (g * (h2 * w2 * (h2 * w2)) + (q * (h2 * w2) + q')) = g := by
    intro g q q' hq hq'
    have hlt := lt_pair hq hq'
    rw [har'.2, har.2, show h2 * w2 * h2 * w2 = h2 * w2 * (h2 * w2) by ring, Nat.mul_comm g, Nat.mul_add_div (by omega), Nat.div_eq_of_lt hlt, Nat.add_zero]
  have ecol : ∀ {b ch ch' q q'}, b < B → ch < c → ch' < c → q < h2 * w2 → q' < h2 * w2 →
      ic.data (((b * c + ch) * c + ch') * (h2 * w2 * (h2 * w2)) + (q * (h2 * w2) + q')) = I b ch' q' := by
    intro b ch ch' q q' hb hch hch' hq hq'
    rw [hic.2, ← hc2.data hb hch hch' hq hq']; congr 1; ring
  have erow : ∀ {b ch ch' q q'}, b < B → ch < c → ch' < c → q < h2 * w2 → q' < h2 * w2 →
      ir.data (((b * c + ch) * c + ch') * (h2 * w2 * (h2 * w2)) + (q * (h2 * w2) + q')) = I b ch q := by
    intro b ch ch' q q' hb hch hch' hq hq'
    rw [← hr2.data hb hch hch' hq' hq]
    refine Eq.trans ?_ (hir.data (lt_pair (lt_pair hb hch) hch') hq hq')
    congr 1; ring
  have hpos : ∀ {b ch ch' q q'}, b < B → ch < c → ch' < c → q < h2 * w2 → q' < h2 * w2 →
      indexPos [B * c * c, h * w, h * w] [ar', ir, ic] (((b * c + ch) * c + ch') * (h2 * w2 * (h2 * w2)) + (q * (h2 * w2) + q'))
        = ((b * c + ch) * c + ch') * (h * w * (h * w)) + (I b ch q * (h * w) + I b ch' q') := by
    intro b ch ch' q q' hb hch hch' hq hq'
    have : ∀ i, indexPos [B * c * c, h * w, h * w] [ar', ir, ic] i = ar'.data i * (h * w * (h * w)) + (ir.data i * (h * w) + ic.data i) := by
      intro i; simp [indexPos, ravel]
    rw [this, ear _ hq hq', erow hb hch hch' hq hq', ecol hb hch hch' hq hq']
  refine (indexPut_zeros (s := [B * c * c, h * w, h * w]) (z := zeros [B * c * c, h * w, h * w]) rfl (fun _ => rfl) rfl ?_ ?_ ?_).bind fun r hr => ?_
  · simp [har'.1, hir.1, hic.1, d3.1]
  · intro i hi
    obtain ⟨b, hb, ch, hch, ch', hch', q, hq, q', hq', rfl⟩ := hex i hi
    simp only [indexOk, List.zipWith_cons_cons, List.zipWith_nil_left, List.all_cons, List.all_nil, Bool.and_true, Bool.and_eq_true,
      ear _ hq hq', erow hb hch hch' hq hq', ecol hb hch hch' hq hq']
    exact ⟨decide_eq_true (lt_pair (lt_pair hb hch) hch'), decide_eq_true (hIl b hb ch hch q hq), decide_eq_true (hIl b hb ch' hch' q' hq')⟩
  · intro i hi i' hi' e
    obtain ⟨b, hb, ch, hch, ch', hch', q, hq, q', hq', rfl⟩ := hex i hi
    obtain ⟨b2, hb2, ch2, hch2, ch2', hch2', q2, hq2, q2', hq2', rfl⟩ := hex i' hi'
    rw [hpos hb hch hch' hq hq', hpos hb2 hch2 hch2' hq2 hq2'] at e
    obtain ⟨e1, e2⟩ := pair_inj (lt_pair (hIl _ hb _ hch _ hq) (hIl _ hb _ hch' _ hq')) (lt_pair (hIl _ hb2 _ hch2 _ hq2) (hIl _ hb2 _ hch2' _ hq2')) e
    obtain ⟨e5, rfl⟩ := pair_inj hch' hch2' e1
    obtain ⟨rfl, rfl⟩ := pair_inj hch hch2 e5
    obtain ⟨e3, e4⟩ := pair_inj (hIl _ hb _ hch' _ hq') (hIl _ hb _ hch' _ hq2') e2
    rw [hIi _ hb _ hch _ hq _ hq2 e3, hIi _ hb _ hch' _ hq' _ hq2' e4]
  refine (reshape_data (by rw [Tensor.numel, hr.1]; simp only [size_cons, size_nil]; ring)).bind fun r' hr' => ?_
  have nr : N5 r' B c c (h * w) (h * w) fun b ch ch' p p' => r.data (((b * c + ch) * c + ch') * (h * w * (h * w)) + (p * (h * w) + p')) :=
    N5.of_data hr'.1 fun b ch ch' p p' _ _ _ _ _ => by rw [hr'.2]; congr 1; ring
  refine (movedim_5_32 nr).bind fun r'' hr'' => ?_
  refine (reshape_data (by rw [hr''.numel]; simp only [size_cons, size_nil]; ring)).mono fun o ho => isMat_img ho.1 fun b i ch' y' z' => ?_
  obtain ⟨ch, y, z, rfl⟩ := pix_surj i
  have hp : (y : Nat) * w + z < h * w := lt_pair y.2 z.2
  have hp' : (y' : Nat) * w + z' < h * w := lt_pair y'.2 z'.2
  have e0 : ((((b : Nat) * (c * h * w) + pix ch y z) * c + ch') * h + y') * w + z'
      = ((((b : Nat) * c + ch) * (h * w) + (y * w + z)) * c + ch') * (h * w) + (y' * w + z') := by
    rw [pix_val]; ring
  rw [e0, ho.2, hr''.data b.2 ch.2 hp ch'.2 hp', hr.2, nv]
  let tn : Nat → Nat → Nat := fun g k => indexPos [B * c * c, h * w, h * w] [ar', ir, ic] (g * (h2 * w2 * (h2 * w2)) + k) - g * (h * w * (h * w))
  have htn : ∀ {b ch ch' q q'}, b < B → ch < c → ch' < c → q < h2 * w2 → q' < h2 * w2 →
      tn ((b * c + ch) * c + ch') (q * (h2 * w2) + q') = I b ch q * (h * w) + I b ch' q' := by
    intro b ch ch' q q' hb hch hch' hq hq'
    simp only [tn]; rw [hpos hb hch hch' hq hq']; omega
  rw [sum_scatter (tg := tn) (N := h * w * (h * w)) ?_ ?_ (lt_pair (lt_pair b.2 ch.2) ch'.2) (lt_pair hp hp')]
  rotate_left
  · intro g hg k hk
    obtain ⟨g, ch', hg', hch', rfl⟩ := exists_pair hg
    obtain ⟨b, ch, hb, hch, rfl⟩ := exists_pair hg'
    obtain ⟨q, q', hq, hq', rfl⟩ := exists_pair hk
    rw [htn hb hch hch' hq hq', hpos hb hch hch' hq hq']
  · intro g hg k hk
    obtain ⟨g, ch', hg', hch', rfl⟩ := exists_pair hg
    obtain ⟨b, ch, hb, hch, rfl⟩ := exists_pair hg'
    obtain ⟨q, q', hq, hq', rfl⟩ := exists_pair hk
    rw [htn hb hch hch' hq hq']
    exact lt_pair (hIl _ hb _ hch _ hq) (hIl _ hb _ hch' _ hq')
  have e3 : ∀ q q', q < h2 * w2 → q' < h2 * w2 → t3.data (((b * c + ch) * c + ch') * (h2 * w2 * (h2 * w2)) + (q * (h2 * w2) + q'))
      = t.data (((((b : Nat) * c + ch) * (h2 * w2) + q) * c + ch') * (h2 * w2) + q') := by
    intro q q' hq hq'
    rw [d3.2]
    refine Eq.trans ?_ (d2.data b.2 ch.2 ch'.2 hq hq')
    congr 1; ring
  rw [sum_range_mul]
  have eR : ((poolJ a c h w h2 w2 (X b))ᵀ * Z b * poolJ a c h w h2 w2 (X b)) (pix ch y z) (pix ch' y' z')
      = ∑ q ∈ Finset.range (h2 * w2), if (y : Nat) * w + z = I b ch q then
          (∑ q' ∈ Finset.range (h2 * w2), if (y' : Nat) * w + z' = I b ch' q' then
            t.data (((((b : Nat) * c + ch) * (h2 * w2) + q) * c + ch') * (h2 * w2) + q') else 0) else 0 := by
    have em : ((pix ch y z : Fin (c * h * w)) : Nat) = ch * (h * w) + (y * w + z) := by rw [pix_val]; ring
    have em' : ((pix ch' y' z' : Fin (c * h * w)) : Nat) = ch' * (h * w) + (y' * w + z') := by rw [pix_val]; ring
    rw [Matrix.mul_assoc, mul_apply]
    have e1 : ∀ k, (poolJ a c h w h2 w2 (X b))ᵀ (pix ch y z) k * (Z b * poolJ a c h w h2 w2 (X b)) k (pix ch' y' z')
        = if (ch : Nat) * (h * w) + (y * w + z) = tgt a (X b) k then (Z b * poolJ a c h w h2 w2 (X b)) k (pix ch' y' z') else 0 := by
      intro k
      rw [transpose_apply, poolJ, em]
      split <;> simp
    rw [Finset.sum_congr rfl fun k _ => e1 k]
    refine sum_tgt hf (X b) ch hp (fun y2 z2 => ?_) fun y2 z2 => hI b ch y2 z2
    rw [mul_poolJ, em']
    refine (sum_tgt hf (X b) ch' hp' (fun y3 z3 => ?_) fun y3 z3 => hI b ch' y3 z3).symm
    rw [← ht.img, pix_val]
    congr 1; ring
  rw [eR]
  refine Finset.sum_congr rfl fun q hq => ?_
  rw [Finset.mem_range] at hq
  have e4 : ∀ q' ∈ Finset.range (h2 * w2), (if ((y : Nat) * w + z) * (h * w) + (y' * w + z') = tn (((b : Nat) * c + ch) * c + ch') (q * (h2 * w2) + q')
      then t3.data ((((b : Nat) * c + ch) * c + ch') * (h2 * w2 * (h2 * w2)) + (q * (h2 * w2) + q')) else 0)
      = if (y : Nat) * w + z = I b ch q then (if (y' : Nat) * w + z' = I b ch' q' then
          t.data (((((b : Nat) * c + ch) * (h2 * w2) + q) * c + ch') * (h2 * w2) + q') else 0) else 0 := by
    intro q' hq'
    rw [Finset.mem_range] at hq'
    rw [htn b.2 ch.2 ch'.2 hq hq', e3 q q' hq hq']
    by_cases h5 : ((y : Nat) * w + z) * (h * w) + (y' * w + z') = I b ch q * (h * w) + I b ch' q'
    · obtain ⟨h6, h7⟩ := pair_inj hp' (hIl _ b.2 _ ch'.2 _ hq') h5
      rw [if_pos h5, if_pos h6, if_pos h7]
    · rw [if_neg h5]
      split
      · rename_i h6
        rw [if_neg fun h7 => h5 (by rw [h6, h7])]
      · rfl
  rw [Finset.sum_congr rfl e4]
  split
  · rfl
  · simp

theorem jTmjpDiag_ret (hf : PoolFits a h w h2 w2) (hx : IsBatch x B [c, h, w] (c * h * w) X)
    (hi : IdxOk a c h w h2 w2 idx X) {u : Tensor ℝ} {U} (hu : IsVec u B (c * h2 * w2) U) :
    Ret (jTmjpDiag B c h w c h2 w2 x u idx) fun r => IsVec r B (c * h * w) fun b => U b ᵥ* poolJ a c h w h2 w2 (X b) := by
  simp only [jTmjpDiag]
  have nu : u.numel = B * (c * h2 * w2) := by rw [Tensor.numel, hu.1]; simp only [size_cons, size_nil]; ring
  have ni : idx.numel = B * (c * h2 * w2) := by rw [Tensor.numel, hi.1]; simp only [size_cons, size_nil]; ring
  refine arange_repeat.bind fun ar har => ?_
  refine (reshape_data (s := [B * c, h2 * w2]) (by rw [Tensor.numel, har.1]; simp only [size_cons, size_nil]; ring)).bind fun ar' har' => ?_
  refine (reshape_data (s := [B * c, h2 * w2]) (by rw [ni]; simp only [size_cons, size_nil]; ring)).bind fun ix hix => ?_
  refine (reshape_data (t := zerosLike x) (s := [B * c, h * w]) (by rw [Tensor.numel, zerosLike, hx.1]; simp only [zeros, full, size_cons, size_nil]; ring)).bind fun z hz => ?_
  refine (reshape_data (s := [B * c, h2 * w2]) (by rw [nu]; simp only [size_cons, size_nil]; ring)).bind fun v hv' => ?_
  refine (scatter_rows (tg := fun b k => tgt a (X b) k) (K := c * h2 * w2) (N := c * h * w) (Nat.mul_assoc _ _ _) (Nat.mul_assoc _ _ _) hz.1 (fun _ => by rw [hz.2]; rfl) hv'.1 har'.1 hix.1
    (fun i => by rw [har'.2, har.2]) (fun b k => by rw [hix.2, hi.2]; exact poolPos_lt hf.toPoolSizes _ _)
    (fun b k => by rw [hix.2, hi.2, ← chan_val]; rfl) (fun b k k' e => tgt_inj hf _ e)).bind fun r hr => ?_
  refine (reshape_data (s := [B, c * h * w]) (by rw [Tensor.numel, hr.1]; simp only [size_cons, size_nil]; ring)).mono fun r' hr' => ⟨hr'.1, fun b m => ?_⟩
  rw [get2 hr'.1, hr'.2, hr.2]
  refine Eq.trans ?_ (vecMul_poolJ _ _ _).symm
  exact Finset.sum_congr rfl fun k _ => by rw [hv'.2, hu.data]

/-- the gather -/
theorem jmpBody_ret (hf : PoolSizes a h w h2 w2) (hx : IsBatch x B [c, h, w] (c * h * w) X) (hv : IsBatch val B [c, h2, w2] (c * h2 * w2) Y)
    (hi : IdxOk a c h w h2 w2 idx X) {A : Tensor ℝ} {Z} (hA : IsMat A B (c * h * w) (c * h * w) Z) :
    Ret (jmpBody x val A idx) fun t => IsMat t B (c * h2 * w2) (c * h * w) fun b => poolJ a c h w h2 w2 (X b) * Z b := by
  have hd : ∀ {i d}, [B, c * h * w, c * h * w][i]? = some d → A.dim i = .ok d := by
    intro i d hi; simp only [Tensor.dim, hA.1, hi]
  simp only [jmpBody, hx.dims4, hv.dims4, Res.bind_ok, assertR, hd (i := 0) rfl, hd (i := 1) rfl, hd (i := 2) rfl]
  have nu : A.numel = B * (c * h * w) * (c * h * w) := by rw [Tensor.numel, hA.1]; simp only [size_cons, size_nil]; ring
  have ni : idx.numel = B * (c * h2 * w2) := by rw [Tensor.numel, hi.1]; simp only [size_cons, size_nil]; ring
  refine (reshape_data (by rw [nu]; simp only [size_cons, size_nil]; ring)).bind fun m hm => ?_
  refine arange_repeat.bind fun ar har => ?_
  refine (reshapeInfer_data (q := B * (c * h2 * w2)) (by simp) (by rw [ni]; simp)).bind fun ix hix => ?_
  have hars : ar.shape = ix.shape := by rw [har.1, hix.1]; simp only [List.nil_append]; congr 1; ring
  have hQ : 0 < h2 * w2 := Nat.mul_pos hf.hh2 hf.hw2
  have ek : ∀ (b : Fin B) (k : Fin (c * h2 * w2)), ar.data (b * (c * h2 * w2) + k) = b * c + (chan k : Fin c) := by
    intro b k
    rw [har.2, chan_val, show (b : Nat) * (c * h2 * w2) + k = h2 * w2 * (b * c) + k by ring, Nat.mul_add_div hQ]
  have hall : (List.range ar.numel).all (fun k => decide (ar.data k < B * c) && decide (ix.data k < h * w)) = true := by
    simp only [List.all_eq_true, List.mem_range, Bool.and_eq_true, decide_eq_true_eq]
    intro i hi'
    have hn : ar.numel = B * (c * h2 * w2) := by rw [Tensor.numel, har.1]; simp only [size_cons, size_nil]; ring
    rw [hn] at hi'
    obtain ⟨b, k, hb, hk, rfl⟩ := exists_pair hi'
    have e1 := ek ⟨b, hb⟩ ⟨k, hk⟩
    have e2 := hi.2 ⟨b, hb⟩ ⟨k, hk⟩
    simp only at e1 e2
    rw [e1, hix.2, e2]
    exact ⟨lt_pair hb (Fin.is_lt _), poolPos_lt hf _ _⟩
  have hg : Ret (m.indexGet2 ar ix) fun g => g.shape = [B * (c * h2 * w2), c, h, w] ∧
      ∀ (b : Fin B) (k : Fin (c * h2 * w2)) (j : Fin (c * h * w)), g.data ((b * (c * h2 * w2) + k) * (c * h * w) + j) = (poolJ a c h w h2 w2 (X b) * Z b) k j := by
    simp only [indexGet2, hm.1, hars, if_true]
    rw [← hars, hall]
    refine Ret.ok ⟨?_, fun b k j => ?_⟩
    · rw [hars, hix.1]; rfl
    · have es : size [c, h, w] = c * h * w := size_img
      simp only [es]
      have hj : (((b : Nat) * (c * h2 * w2) + k) * (c * h * w) + j) / (c * h * w) = b * (c * h2 * w2) + k := by
        rw [Nat.mul_comm, Nat.mul_add_div (lt_of_le_of_lt (Nat.zero_le _) j.2), Nat.div_eq_of_lt j.2, Nat.add_zero]
      have hj' : (((b : Nat) * (c * h2 * w2) + k) * (c * h * w) + j) % (c * h * w) = j := by
        rw [Nat.mul_comm, Nat.mul_add_mod, Nat.mod_eq_of_lt j.2]
      rw [hj, hj', ek, hix.2, hi.2, poolJ_mul hf, ← hA.data, hm.2]
      congr 1
      simp only [tgt]; ring
  refine hg.bind fun g hg => ?_
  refine (reshape_data (s := val.shape ++ [c, h, w]) (by rw [hv.1, Tensor.numel, hg.1]; simp only [List.cons_append, List.nil_append, size_cons, size_nil]; ring)).bind fun g1 hg1 => ?_
  refine (reshape_data (by rw [Tensor.numel, hg1.1, hv.1]; simp only [List.cons_append, List.nil_append, size_cons, size_nil]; ring)).mono fun g2 hg2 => ⟨hg2.1, fun b k j => ?_⟩
  rw [get3 hg2.1, hg2.2, hg1.2]
  refine Eq.trans ?_ (hg.2 b k j)
  congr 1; ring

end
end MaxPool2d
end NNJ
