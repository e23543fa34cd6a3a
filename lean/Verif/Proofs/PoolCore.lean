import Verif.Proofs.Spatial
import Verif.Model.MaxPool2d

/-! Windows of MaxPool2d, indexed assignment and gathering. -/

namespace NNJ
open Tensor Matrix

/-! ### argmax -/

section
variable {α : Type} [LT α] [DecidableLT α]

theorem argmaxFrom_mem (f : Nat → α) (l : List Nat) (cur : Nat) : Torch.argmaxFrom f cur l = cur ∨ Torch.argmaxFrom f cur l ∈ l := by
  induction l generalizing cur with
  | nil => exact .inl rfl
  | cons i l ih =>
    simp only [Torch.argmaxFrom]
    split
    · rcases ih i with h | h
      · exact .inr (by rw [h]; simp)
      · exact .inr (List.mem_cons_of_mem _ h)
    · rcases ih cur with h | h
      · exact .inl h
      · exact .inr (List.mem_cons_of_mem _ h)

theorem argmax_mem (f : Nat → α) {l : List Nat} (h : l ≠ []) : Torch.argmax f l ∈ l := by
  cases l with
  | nil => exact (h rfl).elim
  | cons i l =>
    rcases argmaxFrom_mem f l i with h | h
    · simp [Torch.argmax, h]
    · exact List.mem_cons_of_mem _ h

end

theorem le_argmaxFrom (f : Nat → ℝ) (l : List Nat) (cur : Nat) :
    f cur ≤ f (Torch.argmaxFrom f cur l) ∧ ∀ i ∈ l, f i ≤ f (Torch.argmaxFrom f cur l) := by
  induction l generalizing cur with
  | nil => exact ⟨le_rfl, by simp⟩
  | cons i l ih =>
    simp only [Torch.argmaxFrom]
    split
    · rename_i hlt
      obtain ⟨h1, h2⟩ := ih i
      exact ⟨hlt.le.trans h1, by simpa using ⟨h1, h2⟩⟩
    · rename_i hlt
      obtain ⟨h1, h2⟩ := ih cur
      exact ⟨h1, by simpa using ⟨(not_lt.1 hlt).trans h1, h2⟩⟩

theorem le_argmax (f : Nat → ℝ) {l : List Nat} {i : Nat} (hi : i ∈ l) : f i ≤ f (Torch.argmax f l) := by
  cases l with
  | nil => simp at hi
  | cons j l =>
    obtain ⟨h1, h2⟩ := le_argmaxFrom f l j
    rcases List.mem_cons.1 hi with rfl | h
    · exact h1
    · exact h2 i h

/-! ### windows -/

theorem mem_window {h w y z q : Nat} {a : Torch.PoolArgs} : q ∈ Torch.window h w a y z ↔
    ∃ i < a.kernel.1, ∃ j < a.kernel.2, ∃ yy < h, ∃ zz < w,
      y * a.stride.1 + i * a.dilation.1 = yy + a.padding.1 ∧ z * a.stride.2 + j * a.dilation.2 = zz + a.padding.2 ∧ q = yy * w + zz := by
  simp only [Torch.window, List.mem_flatMap, List.mem_range, List.mem_filterMap]
  constructor
  · rintro ⟨i, hi, j, hj, hq⟩
    split at hq
    · rename_i hc
      obtain ⟨h1, h2, h3, h4⟩ := hc
      simp only [Option.some.injEq] at hq
      refine ⟨i, hi, j, hj, _, ?_, _, ?_, ?_, ?_, hq.symm⟩ <;> omega
    · cases hq
  · rintro ⟨i, hi, j, hj, yy, hy, zz, hz, e1, e2, rfl⟩
    refine ⟨i, hi, j, hj, ?_⟩
    rw [if_pos (by omega)]
    congr 3 <;> omega

section
variable {a : Torch.PoolArgs} {c h w h2 w2 : Nat}

theorem win_axis {k s d i i' y y' : Nat} (hs : (k - 1) * d < s) (hi : i < k) (hi' : i' < k) (e : y * s + i * d = y' * s + i' * d) : y = y' := by
  have b1 : i * d ≤ (k - 1) * d := Nat.mul_le_mul_right _ (by omega)
  have b2 : i' * d ≤ (k - 1) * d := Nat.mul_le_mul_right _ (by omega)
  by_contra hne
  rcases Nat.lt_or_gt_of_ne hne with hlt | hlt
  · have : (y + 1) * s ≤ y' * s := Nat.mul_le_mul_right _ hlt
    rw [Nat.add_mul] at this; omega
  · have : (y' + 1) * s ≤ y * s := Nat.mul_le_mul_right _ hlt
    rw [Nat.add_mul] at this; omega

theorem pair_inj {w y z y' z' : Nat} (hz : z < w) (hz' : z' < w) (e : y * w + z = y' * w + z') : y = y' ∧ z = z' := by
  have h1 : (y * w + z) / w = y := by rw [Nat.mul_comm, Nat.mul_add_div (by omega), Nat.div_eq_of_lt hz, Nat.add_zero]
  have h2 : (y' * w + z') / w = y' := by rw [Nat.mul_comm, Nat.mul_add_div (by omega), Nat.div_eq_of_lt hz', Nat.add_zero]
  have : y = y' := by rw [← h1, e, h2]
  subst this
  exact ⟨rfl, by omega⟩

/-- windows of different outputs are disjoint if the stride is at least the extent of a window -/
theorem PoolSizes.fits_of_stride (hf : PoolSizes a h w h2 w2) (s1 : (a.kernel.1 - 1) * a.dilation.1 < a.stride.1)
    (s2 : (a.kernel.2 - 1) * a.dilation.2 < a.stride.2) : PoolFits a h w h2 w2 := by
  refine ⟨hf, fun y _ z _ y' _ z' _ q h1 h2 => ?_⟩
  obtain ⟨i, hi, j, hj, yy, hy, zz, hz, e1, e2, rfl⟩ := mem_window.1 h1
  obtain ⟨i', hi', j', hj', yy', hy', zz', hz', e1', e2', e⟩ := mem_window.1 h2
  obtain ⟨rfl, rfl⟩ := pair_inj hz hz' e
  exact ⟨win_axis s1 hi hi' (e1.trans e1'.symm), win_axis s2 hj hj' (e2.trans e2'.symm)⟩

theorem poolPos_mem (hf : PoolSizes a h w h2 w2) (x : Fin (c * h * w) → ℝ) (k : Fin (c * h2 * w2)) :
    poolPos a x k ∈ Torch.window h w a (row k) (col k) := argmax_mem _ (hf.ne _ (row k).2 _ (col k).2)

theorem poolPos_lt (hf : PoolSizes a h w h2 w2) (x : Fin (c * h * w) → ℝ) (k : Fin (c * h2 * w2)) : poolPos a x k < h * w := by
  obtain ⟨_, _, _, _, yy, hy, zz, hz, _, _, e⟩ := mem_window.1 (poolPos_mem hf x k)
  rw [e]; exact lt_pair hy hz

/-- the input position feeding output `k` -/
noncomputable def tgt (a : Torch.PoolArgs) (x : Fin (c * h * w) → ℝ) (k : Fin (c * h2 * w2)) : Nat := (chan k : Fin c) * (h * w) + poolPos a x k

theorem tgt_lt (hf : PoolSizes a h w h2 w2) (x : Fin (c * h * w) → ℝ) (k : Fin (c * h2 * w2)) : tgt a x k < c * h * w := by
  rw [Nat.mul_assoc]; exact lt_pair (chan k).2 (poolPos_lt hf x k)

theorem tgt_inj (hf : PoolFits a h w h2 w2) (x : Fin (c * h * w) → ℝ) {k k' : Fin (c * h2 * w2)} (e : tgt a x k = tgt a x k') : k = k' := by
  obtain ⟨e1, e2⟩ := pair_inj (poolPos_lt hf.toPoolSizes x k) (poolPos_lt hf.toPoolSizes x k') e
  have h1 := poolPos_mem hf.toPoolSizes x k
  have h2 := poolPos_mem hf.toPoolSizes x k'
  rw [← e2] at h2
  obtain ⟨e3, e4⟩ := hf.dis _ (row k).2 _ (col k).2 _ (row k').2 _ (col k').2 _ h1 h2
  obtain ⟨a1, y1, z1, rfl⟩ := pix_surj k
  obtain ⟨a2, y2, z2, rfl⟩ := pix_surj k'
  simp only [chan_pix, row_pix, col_pix] at e1 e3 e4
  rw [Fin.ext e1, Fin.ext e3, Fin.ext e4]

theorem chan_val (k : Fin (c * h2 * w2)) : ((chan k : Fin c) : Nat) = k / (h2 * w2) := by
  obtain ⟨b, y, z, rfl⟩ := pix_surj k
  rw [chan_pix, pix_val, show ((b : Nat) * h2 + y) * w2 + z = (h2 * w2) * b + (y * w2 + z) by ring,
    Nat.mul_add_div (lt_of_le_of_lt (Nat.zero_le _) (lt_pair y.2 z.2)), Nat.div_eq_of_lt (lt_pair y.2 z.2), Nat.add_zero]

end

/-! ### indexed assignment into zeros -/

theorem indexPut_zeros {s : List Nat} {is : List (Tensor Nat)} {v z : Tensor ℝ} (hz : z.shape = s) (hz0 : ∀ p, z.data p = 0)
    (hl : is.length = s.length) (hsh : ∀ i ∈ is, i.shape = v.shape)
    (hok : ∀ k < v.numel, indexOk s is k = true)
    (hinj : ∀ k < v.numel, ∀ k' < v.numel, indexPos s is k = indexPos s is k' → k = k') :
    Ret (z.indexPut is v) fun r => r.shape = s ∧
      ∀ p, r.data p = ∑ k ∈ Finset.range v.numel, if indexPos s is k = p then v.data k else 0 := by
  have h1 : is.length = z.shape.length ∧ (is.all fun i => decide (i.shape = v.shape)) = true :=
    ⟨by rw [hz, hl], by simpa using hsh⟩
  have h2 : ((List.range v.numel).all (indexOk z.shape is)) = true := by
    simp only [List.all_eq_true, List.mem_range, hz]; exact hok
  simp only [indexPut, h1, h2, and_self, if_true]
  refine Ret.ok ⟨hz, fun p => ?_⟩
  show (match (List.range v.numel).reverse.find? (fun k => decide (indexPos z.shape is k = p)) with
    | some k => v.data k | none => z.data p) = _
  rw [hz]
  cases hfind : (List.range v.numel).reverse.find? (fun k => decide (indexPos s is k = p)) with
  | none =>
    simp only [hz0]
    rw [List.find?_eq_none] at hfind
    symm
    refine Finset.sum_eq_zero fun k hk => if_neg ?_
    simpa using hfind k (by simpa using Finset.mem_range.1 hk)
  | some k =>
    have hk := List.mem_of_find?_eq_some hfind
    have hp := List.find?_some hfind
    simp only [List.mem_reverse, List.mem_range] at hk
    simp only [decide_eq_true_eq] at hp
    rw [Finset.sum_eq_single k]
    · simp [hp]
    · intro k' hk' hne
      exact if_neg fun e => hne (hinj k' (Finset.mem_range.1 hk') k hk (e.trans hp.symm))
    · exact fun h => (h (Finset.mem_range.2 hk)).elim

/-- splitting a sum over a product of ranges -/
theorem sum_range_mul {M : Type} [AddCommMonoid M] (B K : Nat) (f : Nat → M) :
    ∑ i ∈ Finset.range (B * K), f i = ∑ b ∈ Finset.range B, ∑ k ∈ Finset.range K, f (b * K + k) := by
  induction B with
  | zero => simp
  | succ B ih => rw [Nat.succ_mul, Finset.sum_range_add, ih, Finset.sum_range_succ]

/-- a sum over a batch in which only the terms of row `b` can hit a position of row `b` -/
theorem sum_scatter {B K N : Nat} {e : Nat → Nat} {F : Nat → ℝ} {tg : Nat → Nat → Nat}
    (he : ∀ b < B, ∀ k < K, e (b * K + k) = b * N + tg b k) (ht : ∀ b < B, ∀ k < K, tg b k < N) {b m : Nat} (hb : b < B) (hm : m < N) :
    (∑ i ∈ Finset.range (B * K), if e i = b * N + m then F i else 0) = ∑ k ∈ Finset.range K, if m = tg b k then F (b * K + k) else 0 := by
  rw [sum_range_mul, Finset.sum_eq_single b]
  · refine Finset.sum_congr rfl fun k hk => ?_
    rw [he b hb k (Finset.mem_range.1 hk)]
    have : b * N + tg b k = b * N + m ↔ m = tg b k := by omega
    simp only [this]
  · intro b' hb' hne
    refine Finset.sum_eq_zero fun k hk => if_neg ?_
    rw [he b' (Finset.mem_range.1 hb') k (Finset.mem_range.1 hk)]
    exact fun h => hne (pair_inj (ht b' (Finset.mem_range.1 hb') k (Finset.mem_range.1 hk)) hm h).1
  · exact fun h => (h (Finset.mem_range.2 hb)).elim

theorem arange_repeat {n k : Nat} : Ret ((arange n).repeatInterleave k) fun r => r.shape = [n * k] ∧ ∀ i, r.data i = i / k := by
  exact Ret.ok ⟨rfl, fun _ => rfl⟩

theorem expandAt_ret {α : Type} {t : Tensor α} {d n : Nat} (h : t.shape[d]? = some 1) :
    t.expandAt d n = .ok (ofFn (t.shape.set d n) fun idx => t.get (idx.set d 0)) := by
  simp only [expandAt, h]

section
variable {α : Type} {t : Tensor α} {n a b c d : Nat}

theorem expandAt_4_1 {F : Nat → Nat → Nat → Nat → α} (h : N4 t a 1 c d F) :
    Ret (t.expandAt 1 n) fun r => N4 r a n c d fun i _ k l => F i 0 k l := by
  rw [expandAt_ret (by simp [h.1]), h.1]
  refine Ret.ok ⟨rfl, fun i j k l hi hj hk hl => ?_⟩
  rw [get_ofFn _ (by simp [*])]
  simpa using h.2 i 0 k l hi Nat.one_pos hk hl

theorem expandAt_4_2 {F : Nat → Nat → Nat → Nat → α} (h : N4 t a b 1 d F) :
    Ret (t.expandAt 2 n) fun r => N4 r a b n d fun i j _ l => F i j 0 l := by
  rw [expandAt_ret (by simp [h.1]), h.1]
  refine Ret.ok ⟨rfl, fun i j k l hi hj hk hl => ?_⟩
  rw [get_ofFn _ (by simp [*])]
  simpa using h.2 i j 0 l hi hj Nat.one_pos hl

theorem expandAt_5_1 {e : Nat} {F : Nat → Nat → Nat → Nat → Nat → α} (h : N5 t a 1 c d e F) :
    Ret (t.expandAt 1 n) fun r => N5 r a n c d e fun i _ k l m => F i 0 k l m := by
  rw [expandAt_ret (by simp [h.1]), h.1]
  refine Ret.ok ⟨rfl, fun i j k l m hi hj hk hl hm => ?_⟩
  rw [get_ofFn _ (by simp [*])]
  simpa using h.2 i 0 k l m hi Nat.one_pos hk hl hm

theorem expandAt_5_2 {e : Nat} {F : Nat → Nat → Nat → Nat → Nat → α} (h : N5 t a b 1 d e F) :
    Ret (t.expandAt 2 n) fun r => N5 r a b n d e fun i j _ l m => F i j 0 l m := by
  rw [expandAt_ret (by simp [h.1]), h.1]
  refine Ret.ok ⟨rfl, fun i j k l m hi hj hk hl hm => ?_⟩
  rw [get_ofFn _ (by simp [*])]
  simpa using h.2 i j 0 l m hi hj Nat.one_pos hl hm

end

theorem unsqueeze_data {α : Type} {t : Tensor α} {d : Nat} (h : d ≤ t.shape.length) :
    Ret (t.unsqueeze d) fun r => r.shape = t.shape.insertIdx d 1 ∧ r.data = t.data := by
  simp only [unsqueeze, h, if_true]
  exact Ret.ok ⟨rfl, rfl⟩

end NNJ
